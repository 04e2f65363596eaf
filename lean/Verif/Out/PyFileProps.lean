import Verif.Out.PyLayout
import Verif.Out.CodeGenProps
import Verif.Out.Packed
/-!
# C61: the generated Python file can be loaded — when it is true and when not
-/
namespace Verif.Out

/-! ## Specification of the texts -/

def Balanced' (t : Text) : Prop := (∀ p, p <+: t → p.count ')' ≤ p.count '(') ∧ t.count '(' = t.count ')'

/-- characters with no meaning of their own in Python's line structure, other than parentheses -/
def Inert (c : Char) : Prop := c ∉ ['#', '"', '\'', '\\', '[', ']', '{', '}', ':', '\n']

instance : DecidablePred Inert := fun c => inferInstanceAs (Decidable (c ∉ _))

/-- an expression as sympy prints it: balanced parentheses, no other brackets, no colons, strings or comments -/
def Plain (t : Text) : Prop := Balanced' t ∧ (∀ c ∈ t, Inert c) ∧ ∃ c ∈ t, c ≠ ' '

/-- letters, digits and `_` -/
def wordChar (c : Char) : Bool := c.isAlphanum || c == '_'

/-- a name -/
def IsName (t : Text) : Prop := t ≠ [] ∧ ∀ c ∈ t, wordChar c = true

/-! ## The scanner -/

theorem scan_inert : ∀ (t r : Text) (d : Nat) (b : Bool), (∀ c ∈ t, Inert c) → (∀ p, p <+: t → p.count ')' ≤ d + p.count '(') →
    scan none d b (t ++ r) = scan none (d + t.count '(' - t.count ')') (b && t.all (· == ' ')) r
  | [], r, d, b, _, _ => by simp
  | c :: t, r, d, b, hc, hp => by
    have h0 := hc c (by simp)
    have ht : ∀ c ∈ t, Inert c := fun x hx => hc x (by simp [hx])
    simp only [Inert, List.mem_cons, List.not_mem_nil, or_false, not_or] at h0
    obtain ⟨h1, h2, h3, h4, h5, h6, h7, h8, h9, _⟩ := h0
    simp only [List.cons_append, scan]
    rw [if_neg h1, if_neg (by simp [h2, h3])]
    by_cases ho : c = '('
    · subst ho
      rw [if_pos (by simp), scan_inert t r (d + 1) false ht]
      · simp [show d + 1 + t.count '(' = d + (t.count '(' + 1) by omega]
      · intro p hpt
        have := hp ('(' :: p) (by simpa using hpt)
        simp at this; omega
    · rw [if_neg (by simp [ho, h5, h7])]
      by_cases hcl : c = ')'
      · subst hcl
        have h1 := hp [')'] (by simp)
        have hd : d ≠ 0 := by simp at h1; omega
        rw [if_pos (by simp), if_neg hd, scan_inert t r (d - 1) false ht]
        · simp only [List.count_cons]
          simp
          congr 1; omega
        · intro p hpt
          have := hp (')' :: p) (by simpa using hpt)
          simp at this; omega
      · rw [if_neg (by simp [hcl, h6, h8]), if_neg h4]
        have hq : ∀ p, p <+: t → p.count ')' ≤ d + p.count '(' := by
          intro p hpt
          have := hp (c :: p) (by simpa using hpt)
          simpa [List.count_cons, ho, hcl] using this
        by_cases hs : c = ' '
        · subst hs
          rw [if_pos rfl, scan_inert t r d b ht hq]
          simp
        · rw [if_neg hs, show (c == ':') = false by simp [h9], scan_inert t r d false ht hq]
          simp [ho, hcl, show (c == ' ') = false by simp [hs]]

theorem scan_plain {t : Text} (h : Plain t) (r : Text) (d : Nat) (b : Bool) : scan none d b (t ++ r) = scan none d false r := by
  obtain ⟨⟨h1, h2⟩, h3, c, hc, hn⟩ := h
  rw [scan_inert t r d b h3 (fun p hp => Nat.le_trans (h1 p hp) (by omega)), h2]
  have : t.all (· == ' ') = false := by
    rw [List.all_eq_false]; exact ⟨c, hc, by simp [hn]⟩
  simp [this]

theorem scan_open {t : Text} (h : ∀ c ∈ t, Inert c) (hc : ')' ∉ t) (r : Text) (d : Nat) (b : Bool) :
    scan none d b (t ++ r) = scan none (d + t.count '(') (b && t.all (· == ' ')) r := by
  rw [scan_inert t r d b h (fun p hp => by
    rw [List.count_eq_zero.2 (fun hm => hc (hp.subset hm))]; exact Nat.zero_le _), List.count_eq_zero.2 hc]
  rfl

theorem wordChar_facts {c : Char} (h : wordChar c = true) : Inert c ∧ c ≠ '(' ∧ c ≠ ')' ∧ c ≠ ' ' := by
  simp only [Inert, List.mem_cons, List.not_mem_nil, or_false, not_or]
  refine ⟨⟨?_, ?_, ?_, ?_, ?_, ?_, ?_, ?_, ?_, ?_⟩, ?_, ?_, ?_⟩ <;> (rintro rfl; revert h; decide)

theorem IsName.plain {t : Text} (h : IsName t) : Plain t := by
  obtain ⟨hne, hw⟩ := h
  have hno : ∀ p : Text, p <+: t → p.count ')' = 0 ∧ p.count '(' = 0 := by
    intro p hp
    constructor <;> rw [List.count_eq_zero] <;> intro hm
    · exact (wordChar_facts (hw _ (hp.subset hm))).2.2.1 rfl
    · exact (wordChar_facts (hw _ (hp.subset hm))).2.1 rfl
  refine ⟨⟨fun p hp => by rw [(hno p hp).1]; exact Nat.zero_le _, ?_⟩, fun c hc => (wordChar_facts (hw c hc)).1, ?_⟩
  · have := hno t List.prefix_rfl; rw [this.1, this.2]
  · cases t with
    | nil => exact absurd rfl hne
    | cons c t => exact ⟨c, by simp, (wordChar_facts (hw c (by simp))).2.2.2⟩

/-! ## The text of the domain test -/

theorem upToLast_spec (t : Text) : ∃ c : Text, t = upToLast t ++ c ∧ ')' ∉ c := by
  induction t with
  | nil => exact ⟨[], rfl, by simp⟩
  | cons a t ih =>
    obtain ⟨c, hc, hn⟩ := ih
    simp only [upToLast]
    split
    · rename_i h
      rw [h] at hc
      by_cases ha : a = ')'
      · subst ha; rw [if_pos rfl]
        exact ⟨t, rfl, by rw [hc]; simpa using hn⟩
      · rw [if_neg ha]
        refine ⟨a :: t, rfl, ?_⟩
        rw [hc]
        simp only [List.nil_append, List.mem_cons, not_or]
        exact ⟨fun h => ha h.symm, hn⟩
    · exact ⟨c, by rw [List.cons_append, ← hc], hn⟩

theorem argText_none {t : Text} (h : ')' ∉ t) : argText t = none := by
  induction t with
  | nil => rfl
  | cons a t ih =>
    have ht : ')' ∉ t := fun hm => h (by simp [hm])
    have hu : ∀ t : Text, ')' ∉ t → upToLast t = [] := by
      intro t
      induction t with
      | nil => intro _; rfl
      | cons b t ih2 =>
        intro hb
        simp only [upToLast, ih2 (fun hm => hb (by simp [hm]))]
        rw [if_neg (fun e => hb (by simp [e]))]
    by_cases ha : a = '('
    · subst ha
      simp only [argText, hu t ht]
      exact ih ht
    · rw [argText.eq_def]
      split
      · rfl
      · rename_i h1; simp at h1; exact absurd h1.1 ha
      · rename_i h1 h2; cases h2; exact ih ht

theorem argText_spec {t g : Text} (h : argText t = some g) : ∃ a c : Text, t = a ++ g ++ c ∧ '(' ∉ a ∧ ')' ∉ c ∧ g.head? = some '(' := by
  induction t with
  | nil => cases h
  | cons x t ih =>
    by_cases hx : x = '('
    · subst hx
      simp only [argText] at h
      obtain ⟨c, hc, hn⟩ := upToLast_spec t
      split at h
      · rename_i hu
        rw [hu] at hc
        rw [argText_none (by rw [hc]; simpa using hn)] at h
        cases h
      · cases h
        exact ⟨[], c, by simp [← hc], by simp, hn, rfl⟩
    · rw [argText.eq_def] at h
      split at h
      · cases h
      · rename_i h1; simp at h1; exact absurd h1.1 hx
      · rename_i h1 h2
        cases h2
        obtain ⟨a, c, e, h3, h4, h5⟩ := ih h
        exact ⟨x :: a, c, by simp [e], by simp only [List.mem_cons, not_or]; exact ⟨fun e => hx e.symm, h3⟩, h4, h5⟩

theorem argText_plain {t g : Text} (h : Plain t) (hg : argText t = some g) : Plain g := by
  obtain ⟨a, c, rfl, ha, hc, hh⟩ := argText_spec hg
  obtain ⟨⟨h1, h2⟩, h3, _⟩ := h
  have ha' : a.count ')' = 0 := by
    have := h1 a (by rw [List.append_assoc]; exact List.prefix_append _ _)
    rw [List.count_eq_zero.2 ha] at this; omega
  have hb := h1 (a ++ g) (List.prefix_append _ _)
  simp only [List.count_append, ha', List.count_eq_zero.2 ha, List.count_eq_zero.2 hc] at h2 hb
  refine ⟨⟨fun p hp => ?_, by omega⟩, fun x hx => h3 x (by simp [hx]), ?_⟩
  · have := h1 (a ++ p) (by rw [List.append_assoc]; exact (List.prefix_append_right_inj a).2 (hp.trans (List.prefix_append _ _)))
    simp only [List.count_append, ha', List.count_eq_zero.2 ha] at this
    omega
  · cases g with
    | nil => cases hh
    | cons y g => cases hh; exact ⟨'(', by simp, by decide⟩

/-! ## Lines -/

theorem lines_append (v : Bool) : ∀ (a b : List Text) (s : Lay), s.lines v (a ++ b) = (s.lines v a).bind fun s' => s'.lines v b
  | [], b, s => rfl
  | t :: a, b, s => by
    simp only [List.cons_append, Lay.lines]
    cases s.line v t with
    | none => rfl
    | some s' => exact lines_append v a b s'

theorem line_blank (v : Bool) (s : Lay) (h : s.depth = 0) : s.line v [] = some s := by
  simp [Lay.line, h]

theorem dropWhile_replicate (k : Nat) (rest : Text) {c : Char} (hr : rest.head? = some c) (hs : c ≠ ' ') :
    (List.replicate k ' ' ++ rest).dropWhile (· == ' ') = rest := by
  induction k with
  | zero =>
    cases rest with
    | nil => rfl
    | cons x r => simp only [List.head?_cons, Option.some.injEq] at hr; subst hr; simp [hs]
  | succ k ih => simpa [List.replicate_succ] using ih

theorem line_comment (v : Bool) (s : Lay) (h : s.depth = 0) (k : Nat) (t : Text) : s.line v (List.replicate k ' ' ++ '#' :: t) = some s := by
  unfold Lay.line
  rw [if_neg (by omega)]
  dsimp only
  rw [dropWhile_replicate k ('#' :: t) (c := '#') rfl (by decide)]
  simp

theorem line_code (s : Lay) (h : s.depth = 0) (k : Nat) (rest : Text) {c : Char} (hr : rest.head? = some c) (hs : c ≠ ' ') (hc : c ≠ '#') :
    s.line false (List.replicate k ' ' ++ rest) = (s.indent k).bind fun st =>
      (scan none 0 false rest).map fun r => ⟨st, r.1, r.1 == 0 && r.2⟩ := by
  unfold Lay.line
  rw [if_neg (by omega)]
  dsimp only
  rw [dropWhile_replicate k rest hr hs, if_neg (by rw [hr]; cases rest <;> simp_all)]
  simp only [Bool.false_and, Bool.false_eq_true, if_false, List.length_append, List.length_replicate, Nat.add_sub_cancel]
  cases s.indent k <;> rfl

/-- states inside the generated function, between statements -/
def Inner (s : Lay) : Prop := s = ⟨[4, 0], 0, false⟩ ∨ s = ⟨[8, 4, 0], 0, false⟩

theorem Inner.depth {s : Lay} (h : Inner s) : s.depth = 0 := by rcases h with rfl | rfl <;> rfl

theorem Inner.indent4 {s : Lay} (h : Inner s) : s.indent 4 = some [4, 0] := by rcases h with rfl | rfl <;> rfl

theorem sep_plain : Plain " = ".toList := by
  refine ⟨⟨?_, rfl⟩, ?_, '=', by decide, by decide⟩
  · intro p hp
    have : p.count ')' = 0 := List.count_eq_zero.2 fun hm => absurd (hp.subset hm) (by decide)
    omega
  · intro c hc
    simp at hc
    rcases hc with rfl | rfl | rfl <;> (unfold Inert; decide)

theorem scan_asgn {x r : Text} (hx : Plain x) (hr : Plain r) : scan none 0 false (x ++ " = ".toList ++ r) = some (0, false) := by
  rw [List.append_assoc, scan_plain hx, scan_plain sep_plain]
  have := scan_plain hr [] 0 false
  rw [List.append_nil] at this
  rw [this]; rfl

theorem name_head {x : Text} (h : IsName x) (r : Text) : ∃ c, (x ++ r).head? = some c ∧ c ≠ ' ' ∧ c ≠ '#' := by
  cases x with
  | nil => exact absurd rfl h.1
  | cons c x =>
    have := wordChar_facts (h.2 c (by simp))
    refine ⟨c, rfl, this.2.2.2, fun e => ?_⟩
    subst e; exact this.1 (by decide)

theorem line_asgn (s : Lay) (h : s.depth = 0) (k : Nat) {x r : Text} (hx : IsName x) (hr : Plain r) :
    s.line false (List.replicate k ' ' ++ (x ++ " = ".toList ++ r)) = (s.indent k).map fun st => ⟨st, 0, false⟩ := by
  obtain ⟨c, h1, h2, h3⟩ := name_head hx (" = ".toList ++ r)
  rw [← List.append_assoc] at h1
  rw [line_code s h k _ h1 h2 h3, scan_asgn hx.plain hr]
  cases s.indent k <;> rfl

/-- what the generator writes of one statement is good, if its texts are -/
def GoodOp : PyOp → Prop
  | .guarded g x r => Plain g ∧ IsName x ∧ Plain r
  | .asgn x r => IsName x ∧ Plain r
  | .pack vs => ∀ v ∈ vs, IsName v

theorem names_lines (st : List Nat) (d : Nat) (hd : 0 < d) : ∀ vs : List Text, (∀ v ∈ vs, IsName v) →
    Lay.lines false ⟨st, d, false⟩ (vs.map fun v => v ++ ", ".toList) = some ⟨st, d, false⟩
  | [], _ => rfl
  | v :: vs, h => by
    have h1 : Lay.line false ⟨st, d, false⟩ (v ++ ", ".toList) = some ⟨st, d, false⟩ := by
      unfold Lay.line
      rw [if_pos (by exact hd), scan_plain (h v (by simp)).plain]
      simp [scan]
    simp only [List.map_cons, Lay.lines, h1, Option.bind_some]
    exact names_lines st d hd vs fun v hv => h v (by simp [hv])

theorem op_lines {o : PyOp} (ho : GoodOp o) {s : Lay} (hs : Inner s) : ∃ s', s.lines false o.lines = some s' ∧ Inner s' := by
  cases o with
  | guarded g x r =>
    obtain ⟨hg, hx, hr⟩ := ho
    have h1 : s.line false ("    if (solvable_pose and abs ".toList ++ g ++ "  > 1):".toList) = some ⟨[4, 0], 0, true⟩ := by
      have := line_code s hs.depth 4 ("if (solvable_pose and abs ".toList ++ g ++ "  > 1):".toList) (c := 'i') rfl (by decide) (by decide)
      rw [hs.indent4] at this
      have e : scan none 0 false ("if (solvable_pose and abs ".toList ++ g ++ "  > 1):".toList) = some (0, true) := by
        rw [List.append_assoc]
        have : scan none 0 false ("if (solvable_pose and abs ".toList ++ (g ++ "  > 1):".toList)) = scan none 1 false (g ++ "  > 1):".toList) :=
          scan_open (by decide +kernel) (by decide +kernel) _ 0 false
        rw [this, scan_plain hg]
        decide +kernel
      rw [e] at this
      exact this
    have h2 : Lay.line false ⟨[4, 0], 0, true⟩ "        solvable_pose = False".toList = some ⟨[8, 4, 0], 0, false⟩ := by decide +kernel
    have h3 : Lay.line false ⟨[8, 4, 0], 0, false⟩ "    else:".toList = some ⟨[4, 0], 0, true⟩ := by decide +kernel
    have h4 : Lay.line false ⟨[4, 0], 0, true⟩ ("        ".toList ++ x ++ " = ".toList ++ r) = some ⟨[8, 4, 0], 0, false⟩ := by
      have := line_asgn ⟨[4, 0], 0, true⟩ rfl 8 hx hr
      rw [← List.append_assoc, ← List.append_assoc] at this
      exact this
    refine ⟨_, ?_, .inr rfl⟩
    simp only [PyOp.lines, Lay.lines, h1, h2, h3, h4, Option.bind_some]
  | asgn x r =>
    obtain ⟨hx, hr⟩ := ho
    have := line_asgn s hs.depth 4 hx hr
    rw [hs.indent4] at this
    refine ⟨⟨[4, 0], 0, false⟩, ?_, .inl rfl⟩
    rw [← List.append_assoc, ← List.append_assoc] at this
    have e : s.line false ("    ".toList ++ x ++ " = ".toList ++ r) = some ⟨[4, 0], 0, false⟩ := this
    simp only [PyOp.lines, Lay.lines, e, Option.bind_some]
  | pack vs =>
    refine ⟨⟨[4, 0], 0, false⟩, ?_, .inl rfl⟩
    simp only [PyOp.lines]
    rw [lines_append, lines_append]
    have h1 : s.lines false ["    #(note trailing commas allowed in python".toList, "    solution_list.append( [ ".toList] =
        some ⟨[4, 0], 2, false⟩ := by
      rcases hs with rfl | rfl <;> decide +kernel
    rw [h1, Option.bind_some, names_lines [4, 0] 2 (by decide) vs ho, Option.bind_some]
    decide +kernel

theorem ops_lines : ∀ {ops : List PyOp}, (∀ o ∈ ops, GoodOp o) → ∀ {s : Lay}, Inner s →
    ∃ s', s.lines false (ops.map PyOp.lines).flatten = some s' ∧ Inner s'
  | [], _, s, hs => ⟨s, rfl, hs⟩
  | o :: ops, h, s, hs => by
    obtain ⟨s1, h1, h2⟩ := op_lines (h o (by simp)) hs
    obtain ⟨s2, h3, h4⟩ := ops_lines (ops := ops) (fun o ho => h o (by simp [ho])) h2
    exact ⟨s2, by rw [List.map_cons, List.flatten_cons, lines_append, h1]; exact h3, h4⟩

/-! ## The texts of the table -/

/-- every left side is a name, every right side a plain expression -/
def GoodMat (mat : FMat) : Prop := ∀ row ∈ mat, ∀ e ∈ row, IsName e.1 ∧ Plain e.2

theorem version_good {n : GNode} {e : Text × Text} {ops : List PyOp} (he : IsName e.1 ∧ Plain e.2) (h : pyVersion n e = some ops) :
    ∀ o ∈ ops, GoodOp o := by
  simp only [pyVersion, Option.map_eq_some_iff] at h
  obtain ⟨a, ha, rfl⟩ := h
  intro o ho
  simp only [List.mem_append] at ho
  rcases ho with (ho | ho) | ho
  · split at ha
    · simp only [Option.map_eq_some_iff] at ha
      obtain ⟨g, hg, rfl⟩ := ha
      simp only [List.mem_singleton] at ho
      subst ho
      exact ⟨argText_plain he.2 hg, he⟩
    · cases ha; cases ho
  · split at ho
    · simp only [List.mem_singleton] at ho; subst ho; exact he
    · cases ho
  · split at ho
    · simp only [List.mem_singleton] at ho; subst ho; exact he
    · cases ho

theorem node_good {mat : FMat} (hm : GoodMat mat) {n : GNode} {ops : List PyOp} (h : pyNode mat n = some ops) : ∀ o ∈ ops, GoodOp o := by
  simp only [pyNode, Option.map_eq_some_iff] at h
  obtain ⟨l, hl, rfl⟩ := h
  intro o ho
  obtain ⟨os, h1, h2⟩ := List.mem_flatten.1 ho
  obtain ⟨row, hr, hv⟩ := mapM_mem hl os h1
  simp only [Option.bind_eq_some_iff] at hv
  obtain ⟨e, he, hv⟩ := hv
  exact version_good (hm row hr e (pyGet_mem he)) hv o h2

theorem node_lines {mat : FMat} (hm : GoodMat mat) {n : Text × GNode} {l : List Text} (h : pyNodeLines mat n = some l) {s : Lay} (hs : Inner s) :
    ∃ s', s.lines false l = some s' ∧ Inner s' := by
  simp only [pyNodeLines, Option.map_eq_some_iff] at h
  obtain ⟨ops, ho, rfl⟩ := h
  obtain ⟨s', h1, h2⟩ := ops_lines (node_good hm ho) hs
  refine ⟨s', ?_, h2⟩
  rw [lines_append]
  have hc := line_comment false s hs.depth 4 ("Variable:  ".toList ++ n.1)
  have hc' : s.line false ("    #Variable:  ".toList ++ n.1) = some s := hc
  have : s.lines false [[], [], "    #Variable:  ".toList ++ n.1] = some s := by
    simp only [Lay.lines, line_blank false s hs.depth, Option.bind_some, hc']
  rw [this]
  exact h1

theorem body_lines {mat : FMat} (hm : GoodMat mat) : ∀ {ls : List (List Text)}, (∀ l ∈ ls, ∃ n, pyNodeLines mat n = some l) → ∀ {s : Lay}, Inner s →
    ∃ s', s.lines false ls.flatten = some s' ∧ Inner s'
  | [], _, s, hs => ⟨s, rfl, hs⟩
  | l :: ls, h, s, hs => by
    obtain ⟨n, hn⟩ := h l (by simp)
    obtain ⟨s1, h1, h2⟩ := node_lines hm hn hs
    obtain ⟨s2, h3, h4⟩ := body_lines hm (ls := ls) (fun l hl => h l (by simp [hl])) h2
    exact ⟨s2, by rw [List.flatten_cons, lines_append, h1]; exact h3, h4⟩

/-! ## The name of the function -/

theorem dropTest_id : ∀ {t : Text}, ':' ∉ t → dropTest t = t := by
  intro t
  induction t with
  | nil => intro _; rfl
  | cons c t ih =>
    intro h
    rw [dropTest.eq_def]
    split
    · rename_i cs e
      rw [e] at h; simp at h
    · rename_i c' cs _ e
      cases e
      rw [ih (fun hm => h (by simp [hm]))]
    · rename_i e; cases e

theorem escU_mem {t : Text} {c : Char} (h : c ∈ escU t) : c = '\\' ∨ c ∈ t := by
  induction t with
  | nil => cases h
  | cons a t ih =>
    simp only [escU] at h
    split at h
    · rename_i ha
      simp only [List.mem_cons] at h
      rcases h with h | h | h
      · exact .inl h
      · exact .inr (by simp [ha, h])
      · rcases ih h with h | h
        · exact .inl h
        · exact .inr (by simp [h])
    · simp only [List.mem_cons] at h
      rcases h with h | h
      · exact .inr (by simp [h])
      · rcases ih h with h | h
        · exact .inl h
        · exact .inr (by simp [h])

theorem escU_none : ∀ {t : Text}, '_' ∉ t → escU t = t
  | [], _ => rfl
  | c :: t, h => by
    simp only [List.mem_cons, not_or] at h
    rw [escU, if_neg (fun e => h.1 e.symm), escU_none h.2]

theorem escU_bad : ∀ {t : Text}, '_' ∈ t → (∀ c ∈ t, wordChar c = true) → ∀ (r : Text) (d : Nat) (b : Bool), scan none d b (escU t ++ r) = none
  | [], h, _, _, _, _ => by cases h
  | c :: t, h, hw, r, d, b => by
    by_cases hc : c = '_'
    · subst hc
      simp only [escU, if_true, List.cons_append, scan]
      rw [if_neg (by decide), if_neg (by decide), if_neg (by decide), if_neg (by decide)]
    · have hm : '_' ∈ t := by
        simp only [List.mem_cons] at h
        rcases h with h | h
        · exact absurd h.symm hc
        · exact h
      obtain ⟨h1, h2, h3, h4⟩ := wordChar_facts (hw c (by simp))
      have ih := escU_bad hm (fun x hx => hw x (by simp [hx]))
      simp only [Inert, List.mem_cons, List.not_mem_nil, or_false, not_or] at h1
      obtain ⟨i1, i2, i3, i4, i5, i6, i7, i8, i9, _⟩ := h1
      rw [escU, if_neg hc, List.cons_append, scan, if_neg i1, if_neg (by simp [i2, i3]), if_neg (by simp [h2, i5, i7]),
        if_neg (by simp [h3, i6, i8]), if_neg i4, if_neg h4]
      exact ih r d _

theorem funcName_eq {name : Text} (h : IsName name) : pyFuncName name = "ikin_".toList ++ escU name := by
  unfold pyFuncName
  rw [dropTest_id]
  intro hm
  rcases escU_mem hm with h1 | h1
  · cases h1
  · exact (wordChar_facts (h.2 _ h1)).1 (by decide)

theorem funcName_good {name : Text} (h : IsName name) (hu : '_' ∉ name) : IsName (pyFuncName name) := by
  rw [funcName_eq h, escU_none hu]
  refine ⟨by simp, ?_⟩
  intro c hc
  simp only [List.mem_append] at hc
  rcases hc with hc | hc
  · revert c; decide
  · exact h.2 c hc

/-! ## The file -/

/-- the lines up to and with `def ...` -/
theorem head_lines (name : Text) (hn : IsName name) :
    Lay.lines false .start (["#!/usr/bin/python".toList, "#  Python inverse kinematic equations for ".toList ++ name] ++
      pyImports.map String.toList ++ pyIntro.map String.toList ++
      ["def ".toList ++ pyFuncName name ++ "(T):".toList, "    if(T.shape != (4,4)):".toList,
       "        print ( \"bad input to \"+funcname)".toList, "        quit()".toList]) =
    if '_' ∈ name then none else some ⟨[8, 4, 0], 0, false⟩ := by
  rw [lines_append, lines_append, lines_append]
  have h1 : Lay.lines false .start ["#!/usr/bin/python".toList, "#  Python inverse kinematic equations for ".toList ++ name] = some .start := by
    have a : Lay.start.line false "#!/usr/bin/python".toList = some .start := by decide +kernel
    have b : Lay.start.line false ("#  Python inverse kinematic equations for ".toList ++ name) = some .start :=
      line_comment false .start rfl 0 ("  Python inverse kinematic equations for ".toList ++ name)
    simp only [Lay.lines, a, b, Option.bind_some]
  have h2 : Lay.lines false .start (pyImports.map String.toList) = some .start := by decide +kernel
  have h3 : Lay.lines false .start (pyIntro.map String.toList) = some .start := by decide +kernel
  rw [h1, Option.bind_some, h2, Option.bind_some, h3, Option.bind_some]
  have hd : Lay.start.line false ("def ".toList ++ pyFuncName name ++ "(T):".toList) = if '_' ∈ name then none else some ⟨[0], 0, true⟩ := by
    have := line_code .start rfl 0 ("def ".toList ++ pyFuncName name ++ "(T):".toList) (c := 'd') rfl (by decide) (by decide)
    rw [show List.replicate 0 ' ' ++ ("def ".toList ++ pyFuncName name ++ "(T):".toList) = "def ".toList ++ pyFuncName name ++ "(T):".toList from rfl] at this
    rw [this]
    have e0 : scan none 0 false ("def ".toList ++ pyFuncName name ++ "(T):".toList) = scan none 0 false (pyFuncName name ++ "(T):".toList) := by
      rw [List.append_assoc]; exact scan_open (by decide +kernel) (by decide +kernel) _ 0 false
    rw [e0]
    by_cases hu : '_' ∈ name
    · rw [if_pos hu, funcName_eq hn]
      have : scan none 0 false ("ikin_".toList ++ escU name ++ "(T):".toList) = scan none 0 false (escU name ++ "(T):".toList) := by
        rw [List.append_assoc]; exact scan_open (by decide +kernel) (by decide +kernel) _ 0 false
      rw [this, escU_bad hu hn.2]
      rfl
    · rw [if_neg hu, scan_plain (funcName_good hn hu).plain]
      rfl
  simp only [Lay.lines, hd]
  by_cases hu : '_' ∈ name
  · rw [if_pos hu, if_pos hu]; rfl
  · rw [if_neg hu, if_neg hu]
    have a1 : Lay.line false ⟨[0], 0, true⟩ "    if(T.shape != (4,4)):".toList = some ⟨[4, 0], 0, true⟩ := by decide +kernel
    have a2 : Lay.line false ⟨[4, 0], 0, true⟩ "        print ( \"bad input to \"+funcname)".toList = some ⟨[8, 4, 0], 0, false⟩ := by decide +kernel
    have a3 : Lay.line false ⟨[8, 4, 0], 0, false⟩ "        quit()".toList = some ⟨[8, 4, 0], 0, false⟩ := by decide +kernel
    simp only [Option.bind_some, a1, a2, a3]

/-- names and values of the parameters -/
def GoodParams (pvals : List (Text × Text)) (params : List Text) : Prop := (∀ p ∈ params, IsName p) ∧ ∀ q ∈ pvals, Plain q.2

theorem XXX_plain (p : Text) (hp : IsName p) (s : Lay) (h : s.depth = 0) :
    s.line false (p ++ " = XXXXX    # deliberate undeclared error!  USER needs to give numerical value ".toList) =
      (s.indent 0).map fun st => ⟨st, 0, false⟩ := by
  obtain ⟨c, h1, h2, h3⟩ := name_head hp " = XXXXX    # deliberate undeclared error!  USER needs to give numerical value ".toList
  have := line_code s h 0 _ h1 h2 h3
  rw [scan_plain hp.plain] at this
  have e : scan none 0 false " = XXXXX    # deliberate undeclared error!  USER needs to give numerical value ".toList = some (0, false) := by
    decide +kernel
  rw [e] at this
  refine this.trans ?_
  cases s.indent 0 <;> rfl

/-- lines that begin in the first column -/
theorem col0_lines : ∀ {ls : List Text}, (∀ l ∈ ls, ∀ s : Lay, s.depth = 0 → s.line false l = (s.indent 0).map fun st => ⟨st, 0, false⟩) →
    ls ≠ [] → ∀ {s : Lay}, s = ⟨[4, 0], 0, false⟩ ∨ s = ⟨[0], 0, false⟩ → s.lines false ls = some ⟨[0], 0, false⟩
  | [l], h, _, s, hs => by
    have h1 : s.line false l = some ⟨[0], 0, false⟩ := by
      rcases hs with rfl | rfl <;> rw [h l (by simp) _ rfl] <;> rfl
    rw [Lay.lines, h1]; rfl
  | l :: l' :: ls, h, _, s, hs => by
    have := col0_lines (ls := l' :: ls) (fun x hx => h x (by simp [hx])) (by simp) (s := ⟨[0], 0, false⟩) (.inr rfl)
    have h1 : s.line false l = some ⟨[0], 0, false⟩ := by
      rcases hs with rfl | rfl <;> rw [h l (by simp) _ rfl] <;> rfl
    rw [Lay.lines, h1, Option.bind_some, this]

theorem params_lines {pvals : List (Text × Text)} {params : List Text} {ps : List Text} (hg : GoodParams pvals params)
    (h : pyParams pvals params = some ps) :
    Lay.lines false ⟨[4, 0], 0, false⟩ ps = some (if params = [] then ⟨[4, 0], 0, false⟩ else ⟨[0], 0, false⟩) := by
  simp only [pyParams, Option.map_eq_some_iff] at h
  obtain ⟨l, hl, rfl⟩ := h
  have hb : ∀ st, Lay.line false ⟨st, 0, false⟩ [] = some ⟨st, 0, false⟩ := fun st => line_blank false _ rfl
  have key : Lay.lines false ⟨[4, 0], 0, false⟩ l = some (if params = [] then ⟨[4, 0], 0, false⟩ else ⟨[0], 0, false⟩) := by
    by_cases hp : params = []
    · subst hp
      rw [if_pos rfl]
      split at hl
      · cases hl; rfl
      · cases hl; rfl
    · rw [if_neg hp]
      have hne : l ≠ [] := by
        intro e
        subst e
        split at hl
        · simp at hl; exact hp hl
        · cases params with
          | nil => exact hp rfl
          | cons p ps =>
            rw [List.mapM_cons] at hl
            simp only [Option.pure_def, Option.bind_eq_bind, Option.bind_eq_some_iff, Option.some.injEq] at hl
            obtain ⟨_, _, _, _, h⟩ := hl
            cases h
      refine col0_lines ?_ hne (.inl rfl)
      intro x hx s hs
      split at hl
      · cases hl
        obtain ⟨p, hp, rfl⟩ := List.mem_map.1 hx
        exact XXX_plain p (hg.1 p hp) s hs
      · obtain ⟨p, hp, hv⟩ := mapM_mem hl x hx
        simp only [Option.map_eq_some_iff] at hv
        obtain ⟨val, hv, rfl⟩ := hv
        have hm : ∃ q ∈ pvals, q.2 = val := by
          clear hl hx hg
          rename_i hemp
          clear hemp
          induction pvals with
          | nil => cases hv
          | cons q qs ih =>
            obtain ⟨a, b⟩ := q
            rw [List.lookup_cons] at hv
            split at hv
            · cases hv; exact ⟨(a, val), by simp, rfl⟩
            · obtain ⟨q, h1, h2⟩ := ih hv
              exact ⟨q, by simp [h1], h2⟩
        obtain ⟨q, hq, rfl⟩ := hm
        exact line_asgn s hs 0 (hg.1 p hp) (hg.2 q hq)
  rw [List.cons_append, Lay.lines, hb, Option.bind_some, lines_append, key, Option.bind_some]
  split <;> simp only [Lay.lines, hb, Option.bind_some]

/-- everything after the parameters -/
theorem tail_lines (name : Text) (hn : IsName name) (hu : '_' ∉ name) {mat : FMat} (hm : GoodMat mat) {ls : List (List Text)}
    (hl : ∀ l ∈ ls, ∃ n, pyNodeLines mat n = some l) (groups : List (List Text)) (hgr : ∀ g ∈ groups, ∀ v ∈ g, IsName v) :
    ∃ a b, Lay.lines false ⟨[4, 0], 0, false⟩ (pyCaution.map String.toList ++ ls.flatten ++ pyPackHead.map String.toList ++
        ["    solution_list = []".toList] ++ (groups.map fun g => (PyOp.pack (tsort g)).lines).flatten ++
        pyReturn.map String.toList ++ pyTest.map String.toList ++ ["    list = ".toList ++ pyFuncName name ++ "(T1)".toList]) = some a ∧
      a = ⟨[4, 0], 0, false⟩ ∧ a.lines false (pyTestEnd.map String.toList) = some b ∧ b = ⟨[8, 4, 0], 0, false⟩ := by
  have h1 : Lay.lines false ⟨[4, 0], 0, false⟩ (pyCaution.map String.toList) = some ⟨[4, 0], 0, false⟩ := by decide +kernel
  obtain ⟨s2, h2, i2⟩ := body_lines hm hl (s := ⟨[4, 0], 0, false⟩) (.inl rfl)
  have h3 : s2.lines false (pyPackHead.map String.toList) = some s2 := by rcases i2 with rfl | rfl <;> decide +kernel
  have h4 : s2.lines false ["    solution_list = []".toList] = some ⟨[4, 0], 0, false⟩ := by rcases i2 with rfl | rfl <;> decide +kernel
  obtain ⟨s5, h5, i5⟩ := ops_lines (ops := groups.map fun g => PyOp.pack (tsort g)) (by
    intro o ho
    obtain ⟨g, hg, rfl⟩ := List.mem_map.1 ho
    intro v hv
    exact hgr g hg v ((tsort_perm g).mem_iff.1 hv)) (s := ⟨[4, 0], 0, false⟩) (.inl rfl)
  rw [List.map_map] at h5
  have h6 : s5.lines false (pyReturn.map String.toList) = some ⟨[8, 4, 0], 0, false⟩ := by rcases i5 with rfl | rfl <;> decide +kernel
  have h7 : Lay.lines false ⟨[8, 4, 0], 0, false⟩ (pyTest.map String.toList) = some ⟨[4, 0], 0, false⟩ := by decide +kernel
  have h8 : Lay.lines false ⟨[4, 0], 0, false⟩ ["    list = ".toList ++ pyFuncName name ++ "(T1)".toList] = some ⟨[4, 0], 0, false⟩ := by
    have := line_code ⟨[4, 0], 0, false⟩ rfl 4 ("list = ".toList ++ pyFuncName name ++ "(T1)".toList) (c := 'l') rfl (by decide) (by decide)
    have e0 : scan none 0 false ("list = ".toList ++ pyFuncName name ++ "(T1)".toList) = scan none 0 false (pyFuncName name ++ "(T1)".toList) := by
      rw [List.append_assoc]; exact scan_open (by decide +kernel) (by decide +kernel) _ 0 false
    rw [e0, scan_plain (funcName_good hn hu).plain] at this
    have e : Lay.line false ⟨[4, 0], 0, false⟩ ("    list = ".toList ++ pyFuncName name ++ "(T1)".toList) = some ⟨[4, 0], 0, false⟩ := this
    simp only [Lay.lines, e, Option.bind_some]
  refine ⟨_, _, ?_, rfl, by decide +kernel, rfl⟩
  rw [lines_append, lines_append, lines_append, lines_append, lines_append, lines_append, lines_append, h1, Option.bind_some, h2, Option.bind_some,
    h3, Option.bind_some, h4, Option.bind_some]
  have h5' : Lay.lines false ⟨[4, 0], 0, false⟩ (groups.map fun g => (PyOp.pack (tsort g)).lines).flatten = some s5 := h5
  rw [h5', Option.bind_some, h6, Option.bind_some, h7, Option.bind_some, h8]

theorem node_mem {mat : FMat} {nodes : List (Text × GNode)} {body : List (List Text)} (h : nodes.mapM (pyNodeLines mat) = some body) :
    ∀ l ∈ body, ∃ n, pyNodeLines mat n = some l := fun l hl => by
  obtain ⟨n, _, hn⟩ := mapM_mem h l hl
  exact ⟨n, hn⟩

/-- the whole file, for Python 2 -/
theorem file_lines {name : Text} {pvals : List (Text × Text)} {params : List Text} {nodes : List (Text × GNode)} {mat : FMat}
    {groups : List (List Text)} {file : List Text} (hn : IsName name) (hp : GoodParams pvals params) (hm : GoodMat mat)
    (hgr : ∀ g ∈ groups, ∀ v ∈ g, IsName v) (h : pyFile name pvals params nodes mat groups = some file) :
    ('_' ∈ name ∨ params ≠ [] → Lay.start.lines false file = none) ∧
    ('_' ∉ name → params = [] → ∃ pre, file = pre ++ pyTestEnd.map String.toList ∧ Lay.start.lines false pre = some ⟨[4, 0], 0, false⟩ ∧
      Lay.start.lines false file = some ⟨[8, 4, 0], 0, false⟩) := by
  unfold pyFile at h
  split at h
  · rename_i ps body hps hbody
    cases h
    have hh := head_lines name hn
    have hi : Lay.lines false ⟨[8, 4, 0], 0, false⟩ (pyInputs.map String.toList) = some ⟨[4, 0], 0, false⟩ := by decide +kernel
    have hj : Lay.lines false ⟨[4, 0], 0, false⟩ (pyParamHead.map String.toList) = some ⟨[4, 0], 0, false⟩ := by decide +kernel
    have hk := params_lines hp hps
    generalize hA : (["#!/usr/bin/python".toList, "#  Python inverse kinematic equations for ".toList ++ name] ++
      pyImports.map String.toList ++ pyIntro.map String.toList ++
      ["def ".toList ++ pyFuncName name ++ "(T):".toList, "    if(T.shape != (4,4)):".toList,
       "        print ( \"bad input to \"+funcname)".toList, "        quit()".toList]) = A at hh ⊢
    by_cases hu : '_' ∈ name
    · rw [if_pos hu] at hh
      refine ⟨fun _ => ?_, fun h => absurd hu h⟩
      simp only [List.append_assoc]
      rw [lines_append, hh]; rfl
    · rw [if_neg hu] at hh
      by_cases hpe : params = []
      · refine ⟨fun h => by rcases h with h | h; exacts [absurd h hu, absurd hpe h], fun _ _ => ?_⟩
        rw [if_pos hpe] at hk
        obtain ⟨a, b, h1, rfl, h2, rfl⟩ := tail_lines name hn hu hm (node_mem hbody) groups hgr
        have hpre : Lay.start.lines false (A ++ (pyInputs.map String.toList ++ (pyParamHead.map String.toList ++ (ps ++
            (pyCaution.map String.toList ++ body.flatten ++ pyPackHead.map String.toList ++
            ["    solution_list = []".toList] ++ (groups.map fun g => (PyOp.pack (tsort g)).lines).flatten ++
            pyReturn.map String.toList ++ pyTest.map String.toList ++ ["    list = ".toList ++ pyFuncName name ++ "(T1)".toList])))))
            = some ⟨[4, 0], 0, false⟩ := by
          rw [lines_append, hh, Option.bind_some, lines_append, hi, Option.bind_some, lines_append, hj, Option.bind_some, lines_append, hk,
            Option.bind_some, h1]
        refine ⟨_, ?_, hpre, ?_⟩
        · simp only [List.append_assoc]
        · have : Lay.start.lines false ((A ++ (pyInputs.map String.toList ++ (pyParamHead.map String.toList ++ (ps ++
            (pyCaution.map String.toList ++ body.flatten ++ pyPackHead.map String.toList ++
            ["    solution_list = []".toList] ++ (groups.map fun g => (PyOp.pack (tsort g)).lines).flatten ++
            pyReturn.map String.toList ++ pyTest.map String.toList ++ ["    list = ".toList ++ pyFuncName name ++ "(T1)".toList])))))
            ++ pyTestEnd.map String.toList) = some ⟨[8, 4, 0], 0, false⟩ := by
            rw [lines_append, hpre, Option.bind_some, h2]
          rw [← this]
          simp only [List.append_assoc]
      · refine ⟨fun _ => ?_, fun _ h => absurd h hpe⟩
        rw [if_neg hpe] at hk
        have hl : Lay.lines false ⟨[0], 0, false⟩ (pyCaution.map String.toList) = none := by decide +kernel
        simp only [List.append_assoc]
        rw [lines_append, hh, Option.bind_some, lines_append, hi, Option.bind_some, lines_append, hj, Option.bind_some, lines_append, hk,
            Option.bind_some, lines_append, hl]
        rfl
  · cases h

/-- **C61, exactly when.** Under Python 2, the lines of the generated file are acceptable exactly for the robots that have no parameters
and no `_` in their name. -/
theorem C61_python2_iff (name : Text) (pvals : List (Text × Text)) (params : List Text) (nodes : List (Text × GNode)) (mat : FMat)
    (groups : List (List Text)) (file : List Text) (hn : IsName name) (hp : GoodParams pvals params) (hm : GoodMat mat)
    (hgr : ∀ g ∈ groups, ∀ v ∈ g, IsName v) (h : pyFile name pvals params nodes mat groups = some file) :
    Accepts false file ↔ params = [] ∧ '_' ∉ name := by
  obtain ⟨h1, h2⟩ := file_lines hn hp hm hgr h
  constructor
  · rintro ⟨s, hs, _⟩
    by_cases hu : '_' ∈ name
    · rw [h1 (.inl hu)] at hs; cases hs
    · by_cases hpe : params = []
      · exact ⟨hpe, hu⟩
      · rw [h1 (.inr hpe)] at hs; cases hs
  · rintro ⟨hpe, hu⟩
    obtain ⟨_, _, _, h3⟩ := h2 hu hpe
    exact ⟨_, h3, rfl, rfl⟩

/-- what Python 3 accepts, Python 2 does -/
theorem line_mono {s s' : Lay} {t : Text} (h : s.line true t = some s') : s.line false t = some s' := by
  unfold Lay.line at h ⊢
  split
  · rename_i hd; rw [if_pos hd] at h; exact h
  · rename_i hd
    rw [if_neg hd] at h
    dsimp only at h ⊢
    split
    · rename_i hr; rw [if_pos hr] at h; exact h
    · rename_i hr
      rw [if_neg hr] at h
      simp only [Bool.true_and, Bool.false_and, Bool.false_eq_true, if_false] at h ⊢
      split at h
      · cases h
      · exact h

theorem lines_mono : ∀ {ts : List Text} {s s' : Lay}, s.lines true ts = some s' → s.lines false ts = some s'
  | [], _, _, h => h
  | t :: ts, s, s', h => by
    simp only [Lay.lines, Option.bind_eq_some_iff] at h
    obtain ⟨s1, h1, h2⟩ := h
    simp only [Lay.lines, line_mono h1, Option.bind_some, lines_mono h2]

/-- **C61 violated for every robot.** Python 3 rejects the generated file: it ends with `print` statements. -/
theorem C61_python3_violation (name : Text) (pvals : List (Text × Text)) (params : List Text) (nodes : List (Text × GNode)) (mat : FMat)
    (groups : List (List Text)) (file : List Text) (hn : IsName name) (hp : GoodParams pvals params) (hm : GoodMat mat)
    (hgr : ∀ g ∈ groups, ∀ v ∈ g, IsName v) (h : pyFile name pvals params nodes mat groups = some file) :
    ¬ Accepts true file := by
  rintro ⟨s, hs, _, _⟩
  obtain ⟨h1, h2⟩ := file_lines hn hp hm hgr h
  have hs' := lines_mono hs
  by_cases hu : '_' ∈ name
  · rw [h1 (.inl hu)] at hs'; cases hs'
  · by_cases hpe : params = []
    · obtain ⟨pre, rfl, h3, _⟩ := h2 hu hpe
      rw [lines_append, Option.bind_eq_some_iff] at hs
      obtain ⟨s1, hs1, hs2⟩ := hs
      have := lines_mono hs1
      rw [h3] at this
      cases this
      have e : Lay.lines true ⟨[4, 0], 0, false⟩ (pyTestEnd.map String.toList) = none := by decide +kernel
      rw [e] at hs2; cases hs2
    · rw [h1 (.inr hpe)] at hs'; cases hs'

/-- …so it is rejected for the robots that have parameters, whatever the version -/
theorem C61_parameters_violation (name : Text) (pvals : List (Text × Text)) (params : List Text) (nodes : List (Text × GNode)) (mat : FMat)
    (groups : List (List Text)) (file : List Text) (hn : IsName name) (hp : GoodParams pvals params) (hm : GoodMat mat)
    (hgr : ∀ g ∈ groups, ∀ v ∈ g, IsName v) (h : pyFile name pvals params nodes mat groups = some file) (hne : params ≠ []) (py3 : Bool) :
    ¬ Accepts py3 file := by
  cases py3 with
  | true => exact C61_python3_violation name pvals params nodes mat groups file hn hp hm hgr h
  | false => exact fun ha => hne ((C61_python2_iff name pvals params nodes mat groups file hn hp hm hgr h).1 ha).1

/-! Concrete: a robot with two unknowns, an arctangent and an arccosine. -/

def demoFileNodes : List (Text × GNode) :=
  [("x".toList, ⟨1, methodText [.atan2], []⟩), ("y".toList, ⟨2, methodText [.arccos], "Px/2".toList⟩)]
def demoFileMat : FMat := [[("xv1".toList, "atan2(Py, Px)".toList), ("yv1".toList, "-acos(Px/2)".toList)]]

theorem plain_of {t : Text} (h1 : (t.inits.all fun p => decide (p.count ')' ≤ p.count '(')) = true) (h2 : t.count '(' = t.count ')')
    (h3 : (t.all fun c => decide (Inert c)) = true) (h4 : (t.any fun c => c != ' ') = true) : Plain t := by
  refine ⟨⟨fun p hp => ?_, h2⟩, ?_, ?_⟩
  · have := List.all_eq_true.1 h1 p ((List.mem_inits p t).2 hp)
    simpa using this
  · intro c hc
    have := List.all_eq_true.1 h3 c hc
    simpa using this
  · obtain ⟨c, hc, h⟩ := List.any_eq_true.1 h4
    exact ⟨c, hc, by simpa using h⟩

example : (pyFile "Arm".toList [] [] demoFileNodes demoFileMat [["xs1".toList, "yv1".toList]]).isSome = true ∧
    (pyFile "Arm".toList [] ["l_1".toList] demoFileNodes demoFileMat [["xs1".toList, "yv1".toList]]).isSome = true ∧
    IsName "Arm".toList ∧ GoodMat demoFileMat ∧ GoodParams [] ["l_1".toList] ∧ (∀ v ∈ ["xs1".toList, "yv1".toList], IsName v) := by
  refine ⟨by decide +kernel, by decide +kernel, ⟨by decide, by decide⟩, ?_, ⟨?_, by simp⟩, ?_⟩
  · intro row hr e he
    simp only [demoFileMat, List.mem_singleton] at hr
    subst hr
    simp only [List.mem_cons, List.not_mem_nil, or_false] at he
    rcases he with rfl | rfl
    · exact ⟨⟨by decide, by decide⟩, plain_of (by decide +kernel) (by decide +kernel) (by decide +kernel) (by decide +kernel)⟩
    · exact ⟨⟨by decide, by decide⟩, plain_of (by decide +kernel) (by decide +kernel) (by decide +kernel) (by decide +kernel)⟩
  · intro p hp; simp only [List.mem_singleton] at hp; subst hp; exact ⟨by decide, by decide⟩
  · intro v hv
    simp only [List.mem_cons, List.not_mem_nil, or_false] at hv
    rcases hv with rfl | rfl <;> exact ⟨by decide, by decide⟩

end Verif.Out
