import Verif.Out.CppDecl
/-!
# C65: statements are complete; what a compiler would reject
-/
namespace Verif.Out
open Verif.Leaf Verif.Sol

/-! ## Complete statements -/

/-- A line of a C++ function that a statement may end with: blank, a comment, ending with `;`, `{` or `}`, or the head of an `if` or `else`. -/
def Complete (l : Text) : Prop :=
  l = [] ∨ "//".toList <+: l ∨ (∃ b c, l = b ++ [c] ∧ c ∈ [';', '{', '}']) ∨ (∃ b, l = b ++ "; ".toList) ∨
  (∃ b, l = "if (".toList ++ b ++ ")".toList) ∨ (∃ b, l = "else if (".toList ++ b ++ ")".toList)

theorem sub1_last : ∀ (t run : Text), ∃ b, sub1 run (t ++ [';']) = b ++ [';'] := by
  intro t
  induction ht : t.length using Nat.strongRecOn generalizing t with
  | ind n ih =>
    intro run
    match t with
    | [] => exact ⟨run, by rw [List.nil_append]; rfl⟩
    | [c] =>
      obtain ⟨b, hb⟩ := ih 0 (by simp at ht; omega) [] rfl (run ++ [c])
      obtain ⟨b', hb'⟩ := ih 0 (by simp at ht; omega) [] rfl []
      rw [List.cons_append, sub1]
      · split
        · exact ⟨b, hb⟩
        · rw [hb']; exact ⟨run ++ c :: b', by simp⟩
      · rintro _ rfl h; simp at h
    | [c, d] =>
      obtain ⟨b, hb⟩ := ih 1 (by simp at ht; omega) [d] rfl (run ++ [c])
      obtain ⟨b', hb'⟩ := ih 1 (by simp at ht; omega) [d] rfl []
      rw [List.cons_append, sub1]
      · split
        · exact ⟨b, hb⟩
        · rw [hb']; exact ⟨run ++ c :: b', by simp⟩
      · rintro _ rfl h; simp at h
    | c :: d :: e :: t =>
      simp only [List.length_cons] at ht
      by_cases hm : c = '*' ∧ d = '*' ∧ e = '2'
      · obtain ⟨rfl, rfl, rfl⟩ := hm
        obtain ⟨b, hb⟩ := ih (t.length + 2) (by omega) ('*' :: '2' :: t) rfl []
        obtain ⟨b', hb'⟩ := ih t.length (by omega) t rfl []
        simp only [List.cons_append] at hb ⊢
        rw [sub1]
        split
        · rw [hb]; exact ⟨'*' :: b, by simp⟩
        · rw [hb']; exact ⟨run ++ '*' :: run ++ b', by simp⟩
      · obtain ⟨b, hb⟩ := ih (t.length + 2) (by omega) (d :: e :: t) rfl (run ++ [c])
        obtain ⟨b', hb'⟩ := ih (t.length + 2) (by omega) (d :: e :: t) rfl []
        rw [List.cons_append, sub1]
        · split
          · exact ⟨b, hb⟩
          · rw [hb']; exact ⟨run ++ c :: b', by simp⟩
        · rintro cs rfl h
          simp only [List.cons_append, List.cons.injEq] at h
          exact hm ⟨rfl, h.1, h.2.1⟩

theorem upTo_spec : ∀ {t a r : Text}, upTo t = some (a, r) → t = a ++ ')' :: r
  | [], a, r, h => by cases h
  | c :: cs, a, r, h => by
    rw [upTo] at h
    split at h
    · rename_i hc; cases h; rw [hc]; rfl
    · split at h
      · cases h
      · rename_i a' r' he; cases h; rw [upTo_spec he]; rfl

theorem m2_spec {t g : Text} (h : m2 t = some g) : ∃ r, t = g ++ '*' :: '*' :: '2' :: r := by
  unfold m2 at h
  split at h
  · split at h
    · split at h
      · rename_i he; cases h
        rw [upTo_spec he]; exact ⟨_, by simp; rfl⟩
      · cases h
    · cases h
  · cases h

theorem sub2_last : ∀ (t : Text) (n : Nat), n ≤ t.length → ∃ b, sub2 n (t ++ [';']) = b ++ [';'] := by
  intro t
  induction t with
  | nil =>
    intro n hn
    have : n = 0 := by simpa using hn
    subst this
    exact ⟨[], rfl⟩
  | cons c t ih =>
    intro n hn
    cases n with
    | succ n => rw [List.cons_append, sub2]; exact ih n (by simpa using hn)
    | zero =>
      rw [List.cons_append, sub2]
      cases hm : m2 (c :: (t ++ [';'])) with
      | none =>
        obtain ⟨b, hb⟩ := ih 0 (by omega)
        exact ⟨c :: b, by simp [hb]⟩
      | some g =>
        obtain ⟨r, hr⟩ := m2_spec hm
        have hlen : g.length + 2 ≤ t.length := by
          have h1 : (c :: t) ++ [';'] = g ++ ['*', '*', '2'] ++ r := by rw [List.cons_append, hr]; simp
          rcases List.eq_nil_or_concat r with rfl | ⟨r', x, rfl⟩
          · rw [List.append_nil] at h1
            have := congrArg List.getLast? h1
            rw [List.getLast?_concat, show g ++ ['*', '*', '2'] = (g ++ ['*', '*']) ++ ['2'] by simp, List.getLast?_concat] at this
            exact absurd this (by decide)
          · have := congrArg List.length h1
            simp at this; omega
        obtain ⟨b, hb⟩ := ih (g.length + 2) hlen
        dsimp only
        rw [hb]
        exact ⟨g ++ '*' :: g ++ b, by simp⟩

theorem cppLine_last (t : Text) : ∃ b, cppLine (t ++ [';']) = b ++ [';'] := by
  unfold cppLine
  split
  · obtain ⟨b, hb⟩ := sub1_last t []
    rw [hb]
    exact sub2_last b 0 (Nat.zero_le _)
  · exact ⟨t, rfl⟩

theorem complete_comment (t : Text) : Complete (cppLine ('/' :: '/' :: t)) := by
  obtain ⟨r', h⟩ := cppLine_prefix (p := ['/']) (c := '/') (by decide) (by decide) (by decide) (by decide) (by decide) t
  rw [List.singleton_append, List.singleton_append] at h
  rw [h]
  exact .inr (.inl ⟨r', rfl⟩)

theorem complete_asgn (a b : Text) : Complete (opText (.asgn a b)) := by
  rw [opText, show ";".toList = [';'] from by decide]
  obtain ⟨r, hr⟩ := cppLine_last (a ++ " = ".toList ++ b)
  rw [hr]
  exact .inr (.inr (.inl ⟨r, ';', rfl, by simp⟩))

/-- a test of `Complete` -/
def completeB (l : Text) : Bool :=
  l.isEmpty || "//".toList.isPrefixOf l || (l.getLast?.any fun c => c = ';' || c = '{' || c = '}') || "; ".toList.isSuffixOf l ||
  ("if (".toList.isPrefixOf l && l.getLast? == some ')' && 4 < l.length) ||
  ("else if (".toList.isPrefixOf l && l.getLast? == some ')' && 9 < l.length)

theorem split_last {p l : Text} {c : Char} (hp : p <+: l) (hl : l.getLast? = some c) (hlen : p.length < l.length) : ∃ b, l = p ++ b ++ [c] := by
  obtain ⟨b, rfl⟩ := hp
  rcases List.eq_nil_or_concat b with rfl | ⟨b', x, rfl⟩
  · simp at hlen
  · simp at hl; exact ⟨b', by simp [hl]⟩

theorem complete_of {l : Text} (h : completeB l = true) : Complete l := by
  simp only [completeB, Bool.or_eq_true, Bool.and_eq_true, List.isEmpty_iff, List.isPrefixOf_iff_prefix, List.isSuffixOf_iff_suffix,
    beq_iff_eq, decide_eq_true_eq, Option.any_eq_true] at h
  rcases h with ((((h | h) | ⟨c, h1, h2⟩) | h) | ⟨⟨h1, h2⟩, h3⟩) | ⟨⟨h1, h2⟩, h3⟩
  · exact .inl h
  · exact .inr (.inl h)
  · rcases List.eq_nil_or_concat l with rfl | ⟨b', x, rfl⟩
    · cases h1
    · simp only [List.concat_eq_append, List.getLast?_concat, Option.some.injEq] at h1
      subst h1
      exact .inr (.inr (.inl ⟨b', x, by simp, by simpa [or_assoc] using h2⟩))
  · obtain ⟨b, rfl⟩ := h; exact .inr (.inr (.inr (.inl ⟨b, rfl⟩)))
  · exact .inr (.inr (.inr (.inr (.inl (split_last h1 h2 (show 4 < _ from h3))))))
  · exact .inr (.inr (.inr (.inr (.inr (split_last h1 h2 (show 9 < _ from h3))))))

theorem version_complete {n : GNode} (ht : isTrig n.method = false) (k : Nat) (e : Text × Text) : ∀ o ∈ fileVersion n k e, Complete (opText o) := by
  have e1 : "// solution ".toList ++ natText k = '/' :: '/' :: (" solution ".toList ++ natText k) := by
    rw [← List.cons_append, ← List.cons_append]; congr 1
  have e2 : "// solvemethod: ".toList ++ n.method = '/' :: '/' :: (" solvemethod: ".toList ++ n.method) := by
    rw [← List.cons_append, ← List.cons_append]; congr 1
  have e3 : "//    argument: ".toList ++ n.arg = '/' :: '/' :: ("    argument: ".toList ++ n.arg) := by
    rw [← List.cons_append, ← List.cons_append]; congr 1
  intro o ho
  have hone : ∀ (b : Bool), o ∈ (if b = true then [Op.asgn e.1 e.2] else []) → Complete (opText o) := by
    intro b hb
    cases b with
    | false => cases hb
    | true => simp at hb; subst hb; exact complete_asgn _ _
  simp only [fileVersion, cppVersion, ht, List.mem_append, List.mem_cons, List.not_mem_nil, or_false, Bool.false_eq_true, if_false,
    List.append_nil, List.cons_append, List.nil_append, List.tail_cons] at ho
  rcases ho with rfl | rfl | rfl | rfl | ho
  · exact .inl rfl
  · rw [e1]; exact complete_comment _
  · rw [e2]; exact complete_comment _
  · rw [e3]; exact complete_comment _
  · rcases ho with ((ho | ho) | ho) | ho
    · exact hone _ ho
    · exact hone _ ho
    · exact hone _ ho
    · exact hone _ ho

/-- **C65, complete statements (partial).** If no unknown was solved by an arcsine or arccosine and there are no parameters, every line of the
function is a comment, blank, a brace, the head of an `if`, or ends with a semicolon. -/
theorem C65_terminated_partial (name : Text) (vars : List Text) (nodes : List (Text × GNode)) (mat : FMat) (groups : List (List Text))
    (ops : List Op) (hn : '\n' ∉ name) (ht : ∀ sn ∈ nodes, isTrig sn.2.method = false)
    (h : cppFile name vars [] nodes mat groups = some ops) : ∀ l ∈ ikinLines (printed ops), Complete l := by
  rw [cppFile, Option.map_eq_some_iff] at h
  obtain ⟨bs, hbs, rfl⟩ := h
  rw [ikin_lines hn]
  intro l hl
  obtain ⟨o, ho, rfl⟩ := List.mem_map.1 hl
  have f1 : ∀ o ∈ Op.push :: (multi inputText ++ [Op.line "int solvable_pose = True;".toList, .line "// declare variables in solutions".toList]),
      completeB (opText o) = true := by decide +kernel
  have f2 : ∀ o ∈ [Op.line [], .line "// declare constant parameters (note they will need values!)".toList, .line []],
      completeB (opText o) = true := by decide +kernel
  have f4 : ∀ o ∈ (multi packText ++ [Op.line "//(note trailing commas allowed in C++".toList, .line []]), completeB (opText o) = true := by
    decide +kernel
  have f5 : ∀ o ∈ (multi "\n\n".toList ++ [Op.line "// return 1 for solved, 0 for no solution".toList, .line "return(solvable_pose);".toList, .pop]),
      completeB (opText o) = true := by decide +kernel
  have f8 : ∀ o ∈ multi "\n\n".toList, completeB (opText o) = true := by decide +kernel
  have hnode : ∀ o ∈ bs.flatten, Complete (opText o) := by
    intro o ho
    obtain ⟨b, hb, hob⟩ := List.mem_flatten.1 ho
    obtain ⟨⟨sym, n⟩, hsn, hb⟩ := mapM_mem hbs b hb
    rw [fileNode, Option.map_eq_some_iff] at hb
    obtain ⟨ls, hls, rfl⟩ := hb
    simp only [List.mem_append, List.mem_singleton] at hob
    rcases hob with (hob | rfl) | hob
    · exact complete_of (f8 o hob)
    · rw [show "//Variable: ".toList ++ sym = '/' :: '/' :: ("Variable: ".toList ++ sym) from by
        rw [← List.cons_append, ← List.cons_append]; congr 1]
      exact complete_comment _
    · obtain ⟨v, hv, hov⟩ := List.mem_flatten.1 hob
      obtain ⟨rk, _, hrk⟩ := mapM_mem hls v hv
      rw [Option.map_eq_some_iff] at hrk
      obtain ⟨e, _, rfl⟩ := hrk
      exact version_complete (ht _ hsn) _ _ o hov
  have hpack : ∀ o ∈ packRows 0 groups, Complete (opText o) := by
    have hrow : ∀ (i j : Nat) (vs : List Text), ∀ o ∈ packRow i j vs, Complete (opText o) := by
      intro i j vs
      induction vs generalizing j with
      | nil => intro o ho; cases ho
      | cons v vs ih =>
        intro o ho
        rw [packRow, List.mem_cons] at ho
        rcases ho with rfl | ho
        · exact complete_asgn _ _
        · exact ih _ o ho
    have : ∀ (gs : List (List Text)) (i : Nat), ∀ o ∈ packRows i gs, Complete (opText o) := by
      intro gs
      induction gs with
      | nil => intro i o ho; cases ho
      | cons g gs ih =>
        intro i o ho
        rw [packRows, List.mem_append] at ho
        rcases ho with ho | ho
        · exact hrow _ _ _ o ho
        · exact ih _ o ho
    exact this groups 0
  have hvar : Complete (opText (.line (varDecl vars))) := by
    obtain ⟨r, hr⟩ := cppLine_last (("double".toList ++ vars.flatMap fun v => ' ' :: v ++ [',']).dropLast)
    rw [opText, varDecl, hr]
    exact .inr (.inr (.inl ⟨r, ';', rfl, by simp⟩))
  rcases List.mem_append.1 ho with ho | ho
  · rcases List.mem_append.1 ho with ho | ho
    · rcases List.mem_append.1 ho with ho | ho
      · rcases List.mem_append.1 ho with ho | ho
        · rw [fileDecls, List.map_nil, List.append_nil] at ho
          rcases List.mem_append.1 ho with ho | ho
          · rcases List.mem_append.1 ho with ho | ho
            · rcases List.mem_append.1 ho with ho | ho
              · exact complete_of (f1 o ho)
              · rw [List.mem_singleton] at ho; subst ho; exact hvar
            · exact complete_of (f2 o ho)
          · rw [List.mem_singleton] at ho; subst ho; exact .inl rfl
        · exact hnode o ho
      · exact complete_of (f4 o ho)
    · exact hpack o ho
  · exact complete_of (f5 o ho)

theorem argument_mem {n : GNode} (ht : isTrig n.method = true) (k : Nat) (e : Text × Text) :
    Op.line ("argument = ".toList ++ n.arg) ∈ fileVersion n k e := by
  rw [fileVersion, if_pos ht, cppVersion, if_pos ht]
  refine List.mem_append_right _ (List.mem_cons_of_mem _ ?_)
  simp only [List.cons_append, List.nil_append, List.tail_cons]
  exact List.mem_cons_self

theorem mapM_mem' {α β : Type} {f : α → Option β} : ∀ {l : List α} {r : List β}, l.mapM f = some r → ∀ a ∈ l, ∃ b ∈ r, f a = some b
  | [], _, _, a, ha => by cases ha
  | x :: l, r, h, a, ha => by
    rw [List.mapM_cons] at h
    simp only [Option.pure_def, Option.bind_eq_bind, Option.bind_eq_some_iff] at h
    obtain ⟨b, hb, bs, hbs, hl⟩ := h
    cases hl
    rcases List.mem_cons.1 ha with rfl | ha
    · exact ⟨b, by simp, hb⟩
    · obtain ⟨c, hc, he⟩ := mapM_mem' hbs a ha
      exact ⟨c, by simp [hc], he⟩

/-- **C65 violated.** For every unknown that was solved by an arcsine or arccosine, the line that sets `argument` has no semicolon. -/
theorem C65_argument_violation (name : Text) (vars params : List Text) (nodes : List (Text × GNode)) (mat : FMat) (groups : List (List Text))
    (ops : List Op) (hn : '\n' ∉ name) (hmat : mat ≠ []) (h : cppFile name vars params nodes mat groups = some ops)
    (sn : Text × GNode) (hsn : sn ∈ nodes) (ht : isTrig sn.2.method = true) (ha : ∀ c ∈ sn.2.arg, c ∉ ['*', ';', '{', '}', ' ']) (hne : sn.2.arg ≠ [])
    (hb : sn.2.arg.getLast? ≠ some ')') :
    ("argument = ".toList ++ sn.2.arg) ∈ ikinLines (printed ops) ∧ ¬ Complete ("argument = ".toList ++ sn.2.arg) := by
  constructor
  · rw [cppFile, Option.map_eq_some_iff] at h
    obtain ⟨bs, hbs, rfl⟩ := h
    rw [ikin_lines hn]
    refine List.mem_map.2 ⟨.line ("argument = ".toList ++ sn.2.arg), ?_, ?_⟩
    · have : Op.line ("argument = ".toList ++ sn.2.arg) ∈ bs.flatten := by
        obtain ⟨b, hb, hbe⟩ := mapM_mem' hbs sn hsn
        refine List.mem_flatten.2 ⟨b, hb, ?_⟩
        rw [fileNode, Option.map_eq_some_iff] at hbe
        obtain ⟨ls, hls, rfl⟩ := hbe
        refine List.mem_append_right _ ?_
        obtain ⟨row, rows, rfl⟩ := List.exists_cons_of_ne_nil hmat
        obtain ⟨v, hv, hve⟩ := mapM_mem' hls (row, 0) (by simp [List.zipIdx_cons])
        refine List.mem_flatten.2 ⟨v, hv, ?_⟩
        rw [Option.map_eq_some_iff] at hve
        obtain ⟨e, _, rfl⟩ := hve
        exact argument_mem ht _ _
      exact List.mem_append_left _ (List.mem_append_left _ (List.mem_append_left _ (List.mem_append_right _ this)))
    · refine cppLine_same ?_
      rw [List.mem_append]
      rintro (h | h)
      · revert h; decide
      · exact ha _ h (by simp)
  · obtain ⟨a, c, hac⟩ : ∃ a c, sn.2.arg = a ++ [c] := by
      rcases List.eq_nil_or_concat sn.2.arg with h | ⟨a, c, h⟩
      · exact absurd h hne
      · exact ⟨a, c, by simpa using h⟩
    have hc := ha c (by rw [hac]; simp)
    rw [hac, List.getLast?_concat] at hb
    have hl : ("argument = ".toList ++ (a ++ [c])).getLast? = some c := by rw [← List.append_assoc, List.getLast?_concat]
    rw [hac]
    rintro (h | ⟨b, h⟩ | ⟨b, d, h, hd⟩ | ⟨b, h⟩ | ⟨b, h⟩ | ⟨b, h⟩)
    · simp at h
    · rw [show "argument = ".toList = 'a' :: "rgument = ".toList from by decide, show "//".toList = ['/', '/'] from by decide] at h
      simp only [List.cons_append, List.cons.injEq] at h
      exact absurd h.1 (by decide)
    · rw [h, List.getLast?_concat] at hl
      cases hl
      simp only [List.mem_cons, List.not_mem_nil, or_false] at hc hd
      tauto
    · rw [h, show "; ".toList = [';'] ++ [' '] from by decide, ← List.append_assoc, List.getLast?_concat] at hl
      cases hl
      exact hc (by simp)
    · rw [h, show ")".toList = [')'] from by decide, List.getLast?_concat] at hl
      exact hb hl.symm
    · rw [h, show ")".toList = [')'] from by decide, List.getLast?_concat] at hl
      exact hb hl.symm

/-- **C65 violated.** Without a solution the declaration of the variables is no C++: the last letter of `double` is lost. -/
theorem C65_empty_violation (name : Text) (params : List Text) (nodes : List (Text × GNode)) (mat : FMat) (groups : List (List Text))
    (ops : List Op) (hn : '\n' ∉ name) (h : cppFile name [] params nodes mat groups = some ops) : "doubl;".toList ∈ ikinLines (printed ops) := by
  rw [cppFile, Option.map_eq_some_iff] at h
  obtain ⟨bs, hbs, rfl⟩ := h
  rw [ikin_lines hn]
  refine List.mem_map.2 ⟨.line (varDecl []), by simp [fileDecls], by decide +kernel⟩

end Verif.Out
