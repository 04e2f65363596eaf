import Verif.Out.CodeGen
/-!
# C47: blocks and assignments of the generated code
-/
namespace Verif.Out
open Verif.Leaf

/-! ## Blocks -/

/-- Every block closed was opened before, and all are closed at the end. -/
def Balanced (ops : List Op) : Prop :=
  (∀ p, p <+: ops → p.count .pop ≤ p.count .push) ∧ ops.count .pop = ops.count .push

theorem prefix_append_cases {α : Type} {p a b : List α} (h : p <+: a ++ b) : p <+: a ∨ ∃ q, p = a ++ q ∧ q <+: b := by
  induction a generalizing p with
  | nil => exact .inr ⟨p, rfl, h⟩
  | cons x a ih =>
    rcases List.prefix_cons_iff.1 h with rfl | ⟨t, rfl, ht⟩
    · exact .inl (List.nil_prefix)
    · rcases ih ht with h' | ⟨q, rfl, hq⟩
      · exact .inl (List.cons_prefix_cons.2 ⟨rfl, h'⟩)
      · exact .inr ⟨q, rfl, hq⟩

theorem balanced_nil : Balanced [] := ⟨fun p h => by simp [List.prefix_nil.1 h], rfl⟩

theorem balanced_append {a b : List Op} (ha : Balanced a) (hb : Balanced b) : Balanced (a ++ b) := by
  refine ⟨fun p hp => ?_, by simp [ha.2, hb.2]⟩
  rcases prefix_append_cases hp with h | ⟨q, rfl, hq⟩
  · exact ha.1 p h
  · have := hb.1 q hq; have := ha.2; simp only [List.count_append]; omega

theorem balanced_one {o : Op} (h1 : o ≠ .push) (h2 : o ≠ .pop) : Balanced [o] := by
  refine ⟨fun p hp => ?_, by simp [h1, h2]⟩
  rcases List.prefix_cons_iff.1 hp with rfl | ⟨t, rfl, ht⟩
  · simp
  · simp [List.prefix_nil.1 ht, h1, h2]

theorem balanced_cons {o : Op} {l : List Op} (h1 : o ≠ .push) (h2 : o ≠ .pop) (h : Balanced l) : Balanced (o :: l) :=
  balanced_append (balanced_one h1 h2) h

theorem balanced_block {a : List Op} (ha : Balanced a) : Balanced (.push :: a ++ [.pop]) := by
  refine ⟨fun p hp => ?_, by simp [ha.2]⟩
  rcases prefix_append_cases hp with h | ⟨q, rfl, hq⟩
  · rcases List.prefix_cons_iff.1 h with rfl | ⟨t, rfl, ht⟩
    · simp
    · have := ha.1 t ht; simp; omega
  · rcases List.prefix_cons_iff.1 hq with rfl | ⟨t, rfl, ht⟩
    · simp [ha.2]
    · simp [List.prefix_nil.1 ht, ha.2]

theorem balanced_flatten {ls : List (List Op)} (h : ∀ l ∈ ls, Balanced l) : Balanced ls.flatten := by
  induction ls with
  | nil => exact balanced_nil
  | cons l ls ih => exact balanced_append (h l (by simp)) (ih fun l' h' => h l' (by simp [h']))

theorem balanced_version (n : GNode) (e : Text × Text) : Balanced (cppVersion n e) := by
  have hone : ∀ (b : Bool) (a c : Text), Balanced (if b then [Op.asgn a c] else []) := by
    intro b a c; cases b
    · exact balanced_nil
    · exact balanced_one (by simp) (by simp)
  unfold cppVersion
  refine balanced_append (balanced_append (balanced_append (balanced_append (balanced_append (balanced_one (by simp) (by simp)) ?_)
    (hone _ _ _)) (hone _ _ _)) (hone _ _ _)) (hone _ _ _)
  split
  · refine balanced_cons (by simp) (by simp) (balanced_cons (by simp) (by simp) ?_)
    refine balanced_append (balanced_block (a := [Op.line "solvable_pose = False; ".toList]) (balanced_one (by simp) (by simp))) ?_
    exact balanced_cons (by simp) (by simp) (balanced_block (a := [Op.asgn _ _]) (balanced_one (by simp) (by simp)))
  · exact balanced_nil

theorem balanced_packRow (i : Nat) : ∀ (j : Nat) (vs : List Text), Balanced (packRow i j vs)
  | _, [] => balanced_nil
  | j, v :: vs => balanced_cons (by simp) (by simp) (balanced_packRow i (j + 1) vs)

theorem balanced_packRows : ∀ (i : Nat) (gs : List (List Text)), Balanced (packRows i gs)
  | _, [] => balanced_nil
  | i, _ :: gs => balanced_append (balanced_packRow i 0 _) (balanced_packRows (i + 1) gs)

theorem mapM_mem {α β : Type} {f : α → Option β} : ∀ {l : List α} {r : List β}, l.mapM f = some r →
    (∀ b ∈ r, ∃ a ∈ l, f a = some b)
  | [], r, h => by simp at h; subst h; simp
  | a :: l, r, h => by
    simp only [List.mapM_cons, Option.bind_eq_bind, Option.bind_eq_some_iff, Option.pure_def, Option.some.injEq] at h
    obtain ⟨b, hb, bs, hbs, rfl⟩ := h
    intro b' hb'
    rcases List.mem_cons.1 hb' with rfl | hb'
    · exact ⟨a, by simp, hb⟩
    · obtain ⟨a', ha', h'⟩ := mapM_mem hbs b' hb'
      exact ⟨a', by simp [ha'], h'⟩

theorem balanced_nodes {mat : FMat} {nodes : List GNode} {body : List Op} (h : cppNodes mat nodes = some body) : Balanced body := by
  simp only [cppNodes, Option.map_eq_some_iff] at h
  obtain ⟨bs, hbs, rfl⟩ := h
  refine balanced_flatten fun l hl => ?_
  obtain ⟨n, _, hn⟩ := mapM_mem hbs l hl
  simp only [cppNode, Option.map_eq_some_iff] at hn
  obtain ⟨rs, hrs, rfl⟩ := hn
  refine balanced_flatten fun l hl => ?_
  obtain ⟨row, _, hr⟩ := mapM_mem hrs l hl
  simp only [Option.map_eq_some_iff] at hr
  obtain ⟨e, _, rfl⟩ := hr
  exact balanced_version n e

/-- **C47, blocks.** Whatever the solution, the blocks of the C++ program are balanced. -/
theorem C47_balanced (nodes : List GNode) (mat : FMat) (groups : List (List Text)) (ops : List Op)
    (h : cppCode nodes mat groups = some ops) : Balanced ops := by
  simp only [cppCode, Option.map_eq_some_iff] at h
  obtain ⟨body, hb, rfl⟩ := h
  have hmain : Balanced cppMain := by
    refine balanced_cons (by simp) (by simp) ?_
    refine balanced_block (a := [Op.line _, Op.line _, Op.line _, Op.push, Op.line _, Op.pop, Op.line _, Op.push, Op.line _, Op.pop]) ?_
    refine balanced_cons (by simp) (by simp) (balanced_cons (by simp) (by simp) (balanced_cons (by simp) (by simp) ?_))
    refine balanced_append (balanced_block (a := [Op.line _]) (balanced_one (by simp) (by simp))) ?_
    exact balanced_cons (by simp) (by simp) (balanced_block (a := [Op.line _]) (balanced_one (by simp) (by simp)))
  have := balanced_append hmain (balanced_cons (o := .line "int ikin(double T[4][4], double solution_list[64][6] )".toList)
    (by simp) (by simp) (balanced_block (balanced_append (balanced_nodes hb) (balanced_append (balanced_packRows 0 groups)
      (balanced_one (o := .line "return(solvable_pose);".toList) (by simp) (by simp))))))
  simpa using this

theorem emit_level (ops : List Op) (lv : Int) : (emit lv ops).2 = lv + ops.count .push - ops.count .pop := by
  induction ops generalizing lv with
  | nil => simp [emit]
  | cons o ops ih => cases o <;> simp [emit, ih] <;> omega

/-- The indentation returns to where it began. -/
theorem C47_indentation (nodes : List GNode) (mat : FMat) (groups : List (List Text)) (ops : List Op)
    (h : cppCode nodes mat groups = some ops) : (emit 0 ops).2 = 0 := by
  have := (C47_balanced nodes mat groups ops h).2
  rw [emit_level]; omega

/-- Specification of a well laid out text, given the lines with the writer calls they come from and the indentations of the open blocks
(innermost first): a closing brace closes the innermost block and is indented as its opening brace; the other lines are indented as the brace
of the block they are in (0 outside); all blocks are closed. -/
def Laid : List Int → List (Op × Int × Text) → Prop
  | st, [] => st = []
  | st, (.push, i, t) :: r => t = "{".toList ∧ Laid (i :: st) r
  | st, (.pop, i, t) :: r => t = "}".toList ∧ st.head? = some i ∧ Laid st.tail r
  | st, (_, i, _) :: r => i = st.headD 0 ∧ Laid st r

theorem emit_laid : ∀ (ops : List Op) (d : Nat),
    (∀ p, p <+: ops → p.count .pop ≤ d + p.count .push) → ops.count .pop = d + ops.count .push →
    Laid ((List.range d).map fun (i : Nat) => (d : Int) - i) (ops.zip (emit d ops).1)
  | [], d, _, h => by
    simp at h; subst h; rfl
  | o :: ops, d, hp, h => by
    have hp' : ∀ p, p <+: ops → (o :: p).count .pop ≤ d + (o :: p).count .push := fun p k => hp _ (List.cons_prefix_cons.2 ⟨rfl, k⟩)
    have hs : ∀ d : Nat, ((List.range (d + 1)).map fun (i : Nat) => ((d + 1 : Nat) : Int) - i) =
        ((d : Int) + 1) :: (List.range d).map fun (i : Nat) => (d : Int) - i := by
      intro d
      rw [List.range_succ_eq_map, List.map_cons, List.map_map]
      congr 1
      · simp
    have hh : ∀ d : Nat, (d : Int) = (((List.range d).map fun (i : Nat) => (d : Int) - i)).headD 0 := by
      intro d; cases d with
      | zero => rfl
      | succ d => rw [hs]; simp
    cases o with
    | line t =>
      simp only [emit, List.zip_cons_cons, Laid]
      exact ⟨hh d, emit_laid ops d (fun p k => by simpa using hp' p k) (by simpa using h)⟩
    | asgn a b =>
      simp only [emit, List.zip_cons_cons, Laid]
      exact ⟨hh d, emit_laid ops d (fun p k => by simpa using hp' p k) (by simpa using h)⟩
    | push =>
      simp only [emit, List.zip_cons_cons, Laid]
      have := emit_laid ops (d + 1) (fun p k => by have := hp' p k; simp at this; omega) (by simp at h; omega)
      rw [hs] at this
      exact ⟨trivial, by simpa using this⟩
    | pop =>
      cases d with
      | zero => have := hp' [] List.nil_prefix; simp at this
      | succ d =>
        simp only [emit, List.zip_cons_cons, Laid]
        have := emit_laid ops d (fun p k => by have := hp' p k; simp at this; omega) (by simp at h; omega)
        rw [hs]
        refine ⟨trivial, by simp, ?_⟩
        simp only [List.tail_cons]
        have e : ((d + 1 : Nat) : Int) - 1 = d := by omega
        rw [e]; exact this

/-- **C47, layout.** In the text of the C++ program each closing brace is indented as the brace it closes, and each line as the block it is
in. -/
theorem C47_layout (nodes : List GNode) (mat : FMat) (groups : List (List Text)) (ops : List Op)
    (h : cppCode nodes mat groups = some ops) : (emit 0 ops).1.length = ops.length ∧ Laid [] (ops.zip (emit 0 ops).1) := by
  have hb := C47_balanced nodes mat groups ops h
  refine ⟨?_, by simpa using emit_laid ops 0 (fun p hp => by simpa using hb.1 p hp) (by simpa using hb.2)⟩
  have : ∀ (ops : List Op) lv, (emit lv ops).1.length = ops.length := by
    intro ops
    induction ops with
    | nil => intro lv; rfl
    | cons o ops ih => intro lv; cases o <;> simp [emit, ih]
  exact this ops 0

/-- a robot with two unknowns, the second one with two solutions -/
def demoNodes : List GNode := [⟨1, "atan2(y,x)".toList, []⟩, ⟨2, "arccos".toList, "a/b".toList⟩]
def demoMat : FMat := [[("xv1".toList, "atan2(b, a)".toList), ("yv1".toList, "acos(a/b)".toList)],
  [("xv2".toList, "atan2(b, a)".toList), ("yv2".toList, "-acos(a/b)".toList)]]

example : ∃ ops, cppCode demoNodes demoMat [["xs1".toList, "yv1".toList], ["xs1".toList, "yv2".toList]] = some ops ∧
    ops.count .push = 8 := by
  refine ⟨_, rfl, ?_⟩
  decide +kernel

/-! ## `solvemethod` -/

theorem startsWith_iff {p t : Text} : startsWith p t = true ↔ p <+: t := by
  induction p generalizing t with
  | nil => simp [startsWith]
  | cons a p ih =>
    cases t with
    | nil => simp [startsWith]
    | cons b t => simp [startsWith, ih, List.cons_prefix_cons]

/-- `within` is being a substring -/
theorem within_iff {p t : Text} : within p t = true ↔ p <:+: t := by
  induction t with
  | nil => simp only [within, startsWith_iff]; simp
  | cons c t ih => simp only [within, Bool.or_eq_true, startsWith_iff, ih, List.infix_cons_iff]

/-- the first characters of what is appended to a method -/
def heads : List Char := ['a', ',', 's', 'x']

/-- `p` cannot begin inside `t`, if what follows `t` begins with one of `heads` -/
def apart (p t : Text) : Bool := t.tails.all fun a =>
  a.isEmpty || (!startsWith p a && (!startsWith a p || match p.drop a.length with
    | [] => false
    | c :: _ => !heads.contains c))

theorem startsWith_append {p a s : Text} (h : startsWith p (a ++ s) = true) :
    startsWith p a = true ∨ (startsWith a p = true ∧ startsWith (p.drop a.length) s = true) := by
  induction a generalizing p with
  | nil => right; exact ⟨rfl, by simpa using h⟩
  | cons c a ih =>
    cases p with
    | nil => left; rfl
    | cons d p =>
      simp only [List.cons_append, startsWith, Bool.and_eq_true, beq_iff_eq] at h
      obtain ⟨rfl, h⟩ := h
      rcases ih h with h | h
      · left; simp [startsWith, h]
      · right; simpa [startsWith] using h

theorem within_skip {p t s : Text} (h : apart p t = true) (hs : ∀ c, s.head? = some c → c ∈ heads) :
    within p (t ++ s) = within p s := by
  induction t with
  | nil => rfl
  | cons c t ih =>
    simp only [apart, List.tails_cons, List.all_cons, Bool.and_eq_true] at h
    have h2 := ih h.2
    have h1 : startsWith p (c :: t ++ s) = false := by
      rw [← Bool.not_eq_true]
      intro hp
      have h1 := h.1
      simp only [List.isEmpty_cons, Bool.false_or, Bool.and_eq_true, Bool.not_eq_true'] at h1
      rcases startsWith_append hp with h' | ⟨h', h''⟩
      · rw [h1.1] at h'; cases h'
      · have h3 := h1.2
        rw [h'] at h3
        simp only [Bool.not_true, Bool.false_or] at h3
        split at h3
        · cases h3
        · rename_i d ds hd
          rw [hd] at h''
          cases s with
          | nil => simp [startsWith] at h''
          | cons x s =>
            simp only [startsWith, Bool.and_eq_true, beq_iff_eq] at h''
            have := hs x rfl
            rw [h''.1] at h3
            simp [this] at h3
    rw [List.cons_append, within, ← List.cons_append, h1, h2, Bool.false_or]

theorem within_append_left {p t s : Text} (h : within p t = true) : within p (t ++ s) = true := by
  rw [within_iff] at h ⊢
  exact h.trans ⟨[], s, by simp⟩

/-- the piece as it is appended; `false` at the beginning -/
def Tag.piece' (b : Bool) (t : Tag) : Text :=
  if (t = .arcsin ∨ t = .arccos) ∧ b = true then ", ".toList ++ Tag.piece t else Tag.piece t

/-- the method, without accumulator; `b`: something is there already -/
def methodFrom : Bool → List Tag → Text
  | _, [] => []
  | b, t :: ts => Tag.piece' b t ++ methodFrom true ts

theorem piece_ne (b : Bool) (t : Tag) : Tag.piece' b t ≠ [] := by cases b <;> cases t <;> decide

theorem methodFrom_eq (ts : List Tag) (m : Text) : ts.foldl addTag m = m ++ methodFrom (!m.isEmpty) ts := by
  induction ts generalizing m with
  | nil => simp [methodFrom]
  | cons t ts ih =>
    have h : addTag m t = m ++ Tag.piece' (!m.isEmpty) t := by
      cases m with
      | nil => simp [addTag, Tag.piece']
      | cons c m => simp only [addTag, Tag.piece']; split <;> split <;> simp_all
    have hne : (m ++ Tag.piece' (!m.isEmpty) t).isEmpty = false := by
      have := piece_ne (!m.isEmpty) t
      cases m <;> cases hp : Tag.piece' _ t <;> simp_all
    rw [List.foldl_cons, h, ih, hne, methodFrom]; simp

theorem methodText_eq (ts : List Tag) : methodText ts = methodFrom false ts := by
  rw [methodText, methodFrom_eq]; rfl

theorem methodFrom_head (b : Bool) (ts : List Tag) : ∀ c, (methodFrom b ts).head? = some c → c ∈ heads := by
  intro c h
  cases ts with
  | nil => cases h
  | cons t ts =>
    have : (methodFrom b (t :: ts)).head? = (Tag.piece' b t).head? := by
      rw [methodFrom, List.head?_append]
      have := piece_ne b t
      cases hp : Tag.piece' b t <;> simp_all
    rw [this] at h
    have key : (match Tag.piece' b t with | [] => false | c :: _ => heads.contains c) = true := by cases b <;> cases t <;> decide
    cases hp : Tag.piece' b t with
    | nil => rw [hp] at h; cases h
    | cons d r => rw [hp] at h key; cases h; simpa using key

/-- a piece that no other piece can contain, or begin to contain -/
def Distinct (t : Tag) (p : Text) : Prop :=
  (∀ b, within p (Tag.piece' b t) = true) ∧ ∀ b t', t' ≠ t → apart p (Tag.piece' b t') = true

theorem within_method {t : Tag} {p : Text} (h : Distinct t p) (hp : p ≠ []) (b : Bool) (ts : List Tag) :
    within p (methodFrom b ts) = ts.contains t := by
  induction ts generalizing b with
  | nil => cases p with
    | nil => exact absurd rfl hp
    | cons c p => rfl
  | cons t' ts ih =>
    rw [methodFrom]
    by_cases ht : t' = t
    · subst ht
      rw [within_append_left (h.1 b)]; simp
    · rw [within_skip (h.2 b t' ht) (methodFrom_head true ts), ih]
      rw [List.contains_cons]
      simp [Ne.symm ht]

/-- **The substring tests of the code on `solvemethod` are the membership tests of the model** (in `Leaf.Model`). -/
theorem method_tests (ts : List Tag) :
    within "algebra".toList (methodText ts) = ts.contains .algebra ∧
    within "arcsin".toList (methodText ts) = ts.contains .arcsin ∧
    within "arccos".toList (methodText ts) = ts.contains .arccos ∧
    within "atan2(y,x)".toList (methodText ts) = ts.contains .atan2 ∧
    within "sinANDcos".toList (methodText ts) = ts.contains .sinANDcos ∧
    within "simultaneous eqn".toList (methodText ts) = ts.contains .simu ∧
    within "x2z2".toList (methodText ts) = ts.contains .x2z2 := by
  simp only [methodText_eq]
  refine ⟨?_, ?_, ?_, ?_, ?_, ?_, ?_⟩
  all_goals
    refine within_method ⟨?_, ?_⟩ (by decide) false ts
    · intro b; cases b <;> decide
    · intro b t' ht'; cases b <;> cases t' <;> first | (exact absurd rfl ht') | decide

/-- a method is exactly `arcsin` only if this is the only piece -/
theorem method_eq (ts : List Tag) : (methodText ts = "arcsin".toList ↔ ts = [.arcsin]) ∧ (methodText ts = "arccos".toList ↔ ts = [.arccos]) ∧
    (methodText ts = "algebra".toList ↔ ts = [.algebra]) := by
  have key : ∀ t ∈ [Tag.arcsin, .arccos, .algebra], ∀ ts : List Tag, methodFrom false ts = Tag.piece t → ts = [t] := by
    intro t ht ts h
    cases ts with
    | nil => exact absurd h.symm (by cases t <;> decide)
    | cons t' ts =>
      rw [methodFrom] at h
      have hpre : Tag.piece' false t' <+: Tag.piece t := ⟨_, h⟩
      have : t' = t := by
        rw [← startsWith_iff] at hpre
        revert hpre
        simp only [List.mem_cons, List.not_mem_nil, or_false] at ht
        rcases ht with rfl | rfl | rfl <;> cases t' <;> decide
      subst this
      have e : Tag.piece' false t' = Tag.piece t' := by simp [Tag.piece']
      rw [e] at h
      have hnil : methodFrom true ts = [] := by simpa using h
      cases ts with
      | nil => rfl
      | cons t2 ts =>
        rw [methodFrom] at hnil
        exact absurd (List.append_eq_nil_iff.1 hnil).1 (piece_ne true t2)
  simp only [methodText_eq]
  exact ⟨⟨key .arcsin (by simp) ts, fun h => by rw [h]; rfl⟩, ⟨key .arccos (by simp) ts, fun h => by rw [h]; rfl⟩,
    ⟨key .algebra (by simp) ts, fun h => by rw [h]; rfl⟩⟩

end Verif.Out
