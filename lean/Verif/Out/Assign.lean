import Verif.Out.CodeGenProps
import Verif.Sol.VersionsProps
/-!
# C47: the assignments of the generated code
-/
namespace Verif.Out
open Verif.Leaf Verif.Sol

/-- the assignments in a C++ program -/
def asgns : List Op → List (Text × Text)
  | [] => []
  | .asgn l r :: ops => (l, r) :: asgns ops
  | _ :: ops => asgns ops

theorem asgns_append (a b : List Op) : asgns (a ++ b) = asgns a ++ asgns b := by
  induction a with
  | nil => rfl
  | cons o a ih => cases o <;> simp [asgns, ih]

def b2n (b : Bool) : Nat := if b then 1 else 0

/-- **C47, count in C++.** For every method, how often the version of an unknown is assigned. -/
theorem C47_cpp_count (n : GNode) (ts : List Tag) (hm : n.method = methodText ts) (e : Text × Text) :
    (asgns (cppVersion n e)).length =
      b2n (ts = [.arcsin] ∨ ts = [.arccos]) + b2n (ts.contains .atan2) + b2n (ts.contains .algebra) + b2n (ts.contains .x2z2) +
        b2n (ts.contains .simu) ∧
    (∀ p ∈ asgns (cppVersion n e), p.1 = e.1) ∧
    (¬ (ts = [.arcsin] ∨ ts = [.arccos]) → ∀ p ∈ asgns (cppVersion n e), p = e) := by
  obtain ⟨h1, _, _, h4, _, h6, h7⟩ := method_tests ts
  obtain ⟨e1, e2, _⟩ := method_eq ts
  have ht : isTrig n.method = decide (ts = [.arcsin] ∨ ts = [.arccos]) := by
    rw [isTrig, hm, Bool.eq_iff_iff]
    simp only [Bool.or_eq_true, beq_iff_eq, decide_eq_true_eq, e1, e2]
  have htr : (ts = [.arcsin] ∨ ts = [.arccos]) → ts.contains .atan2 = false := by
    rintro (rfl | rfl) <;> rfl
  have hE : asgns (cppVersion n e) = (if ts = [.arcsin] ∨ ts = [.arccos] then [(e.1, n.method ++ "(argument)".toList)] else []) ++
      (if ts.contains .atan2 then [e] else []) ++ (if ts.contains .algebra then [e] else []) ++
      (if ts.contains .x2z2 then [e] else []) ++ (if ts.contains .simu then [e] else []) := by
    have hone : ∀ b : Bool, asgns (if b = true then [Op.asgn e.1 e.2] else []) = if b = true then [e] else [] := by
      intro b; cases b <;> rfl
    simp only [cppVersion, asgns_append, hone, hm, h1, h4, h6, h7]
    rw [← hm, ht]
    by_cases hh : ts = [.arcsin] ∨ ts = [.arccos]
    · have := htr hh
      simp only [if_pos hh, decide_eq_true hh, this, if_true, Bool.not_true, Bool.false_and]
      rfl
    · simp only [if_neg hh, decide_eq_false hh, Bool.not_false, Bool.true_and]
      rfl
  refine ⟨?_, ?_, ?_⟩
  · rw [hE]
    simp only [List.length_append, b2n]
    congr 1
    · congr 1
      · congr 1
        · congr 1
          · split <;> simp_all
          · split <;> simp_all
        · split <;> simp_all
      · split <;> simp_all
    · split <;> simp_all
  · rw [hE]; intro p hp
    simp only [List.mem_append] at hp
    rcases hp with (((hp | hp) | hp) | hp) | hp <;> split at hp <;> simp_all
  · intro hh; rw [hE]; intro p hp
    simp only [List.mem_append, if_neg hh] at hp
    rcases hp with (((hp | hp) | hp) | hp) | hp
    · cases hp
    all_goals split at hp <;> simp_all

/-- Exactly one of the five cases of the generator applies. -/
def OneCase (ts : List Tag) : Prop :=
  b2n (ts = [.arcsin] ∨ ts = [.arccos]) + b2n (ts.contains .atan2) + b2n (ts.contains .algebra) + b2n (ts.contains .x2z2) +
    b2n (ts.contains .simu) = 1

instance (ts : List Tag) : Decidable (OneCase ts) := by unfold OneCase; infer_instance

theorem pyGet_order {α : Type} (l : List α) {k : Nat} (h : 1 ≤ k) : pyGet l ((k : Int) - 1) = l[k - 1]? := by
  have h1 : (0 : Int) ≤ (k : Int) - 1 := by omega
  have h2 : ((k : Int) - 1).toNat = k - 1 := by omega
  rw [pyGet, if_pos h1, h2]

theorem mapM_flat {α β γ : Type} {f : α → Option (List β)} {g : List β → List γ} {h : α → List γ}
    (hg : ∀ a b, g (a ++ b) = g a ++ g b) (hn : g [] = []) :
    ∀ {l : List α} {r : List (List β)}, l.mapM f = some r → (∀ a ∈ l, ∀ b, f a = some b → g b = h a) → g r.flatten = l.flatMap h
  | [], r, hr, _ => by simp at hr; subst hr; simpa using hn
  | a :: l, r, hr, hh => by
    simp only [List.mapM_cons, Option.bind_eq_bind, Option.bind_eq_some_iff, Option.pure_def, Option.some.injEq] at hr
    obtain ⟨b, hb, bs, hbs, rfl⟩ := hr
    rw [List.flatten_cons, hg, hh a (by simp) b hb, mapM_flat hg hn hbs (fun a ha => hh a (by simp [ha])), List.flatMap_cons]

/-- the left side of the equation of row `row` for the unknown with solve order `k` -/
def lhsAt (k : Nat) (row : List (Text × Text)) : Text := ((row[k - 1]?).map (·.1)).getD []

theorem version_once {n : GNode} {ts : List Tag} (hm : n.method = methodText ts) (h1 : OneCase ts) (e : Text × Text) :
    (asgns (cppVersion n e)).map (·.1) = [e.1] := by
  obtain ⟨hl, ha, _⟩ := C47_cpp_count n ts hm e
  rw [h1] at hl
  match hx : asgns (cppVersion n e), hl with
  | [p], _ => simp [ha p (by rw [hx]; simp)]

/-- **C47, assignments in C++ (partial).** If for the method of every node exactly one of the five cases of the generator applies, then the
program assigns, before the packing, node after node in solving order, exactly one time the version of the unknown of each row, and
nothing else. Missing: other methods (below), and the value assigned for `arcsin`/`arccos` (below). -/
theorem C47_cpp_once_partial (nodes : List GNode) (mat : FMat) (groups : List (List Text)) (ops : List Op)
    (h : cppCode nodes mat groups = some ops)
    (hn : ∀ n ∈ nodes, 1 ≤ n.order ∧ ∃ ts, n.method = methodText ts ∧ OneCase ts) :
    ∃ front, asgns ops = front ++ asgns (packRows 0 groups) ∧
      front.map (·.1) = nodes.flatMap fun n => mat.map (lhsAt n.order) := by
  simp only [cppCode, Option.map_eq_some_iff] at h
  obtain ⟨body, hb, rfl⟩ := h
  refine ⟨asgns body, ?_, ?_⟩
  · have h1 : asgns cppMain = [] := rfl
    simp [asgns_append, h1, asgns]
  · simp only [cppNodes, Option.map_eq_some_iff] at hb
    obtain ⟨bs, hbs, rfl⟩ := hb
    refine mapM_flat (g := fun o => (asgns o).map (·.1)) (h := fun n => mat.map (lhsAt n.order))
      (fun a b => by simp [asgns_append]) rfl hbs ?_
    intro n hnm b hbn
    obtain ⟨h1, ts, hm, ho⟩ := hn n hnm
    simp only [cppNode, Option.map_eq_some_iff] at hbn
    obtain ⟨rs, hrs, rfl⟩ := hbn
    rw [show mat.map (lhsAt n.order) = mat.flatMap fun row => [lhsAt n.order row] from List.map_eq_flatMap ..]
    refine mapM_flat (g := fun o => (asgns o).map (·.1)) (h := fun row => [lhsAt n.order row])
      (fun a b => by simp [asgns_append]) rfl hrs ?_
    intro row _ b hb
    simp only [pyGet_order row h1, Option.map_eq_some_iff] at hb
    obtain ⟨e, he, rfl⟩ := hb
    rw [version_once hm ho]
    simp [lhsAt, he]

example : (∀ n ∈ demoNodes, 1 ≤ n.order ∧ ∃ ts, n.method = methodText ts ∧ OneCase ts) ∧
    demoNodes.flatMap (fun n => demoMat.map (lhsAt n.order)) = ["xv1".toList, "xv2".toList, "yv1".toList, "yv2".toList] := by
  refine ⟨?_, by decide +kernel⟩
  intro n hn
  simp only [demoNodes, List.mem_cons, List.not_mem_nil, or_false] at hn
  rcases hn with rfl | rfl
  · exact ⟨by decide, [.atan2], by decide +kernel, by decide⟩
  · exact ⟨by decide, [.arccos], by decide +kernel, by decide⟩

/-- The methods of one leaf alone, except `sinANDcos`, and those of the rank leaf after them, are fine. -/
theorem OneCase_methods : OneCase [.algebra] ∧ OneCase [.atan2] ∧ OneCase [.simu] ∧ OneCase [.arcsin] ∧ OneCase [.arccos] ∧
    OneCase [.arcsin, .atan2, .bestRanked, .sinOrCos] ∧ OneCase [.arccos, .atan2, .bestRanked, .atan2] ∧
    OneCase [.x2z2, .sinANDcos] ∧ OneCase [.x2z2, .arccos] := by
  decide

/-- **C47 violated.** Unknowns solved by `sinANDcos` are not assigned in C++ at all. -/
theorem C47_sinANDcos_violation (n : GNode) (hm : n.method = methodText [.sinANDcos]) (e : Text × Text) :
    asgns (cppVersion n e) = [] := by
  have := (C47_cpp_count n _ hm e).1
  exact List.length_eq_zero_iff.1 this

/-- **C47 violated.** After the x2z2 transform, an unknown solved by algebra is assigned twice. -/
theorem C47_twice_violation (n : GNode) (hm : n.method = methodText [.x2z2, .algebra]) (e : Text × Text) :
    asgns (cppVersion n e) = [e, e] := by
  have h := C47_cpp_count n _ hm e
  have h3 := h.2.2 (by decide)
  match hx : asgns (cppVersion n e), h.1 with
  | [p, q], _ =>
    rw [hx] at h3
    rw [h3 p (by simp), h3 q (by simp)]

/-- **C47 violated.** All versions of an unknown solved by `arccos` are assigned the same text, a call of the function `arccos`, whatever
the solution is. -/
theorem C47_arccos_violation (n : GNode) (hm : n.method = methodText [.arccos]) (e : Text × Text) :
    asgns (cppVersion n e) = [(e.1, "arccos(argument)".toList)] := by
  have ht : n.method = "arccos".toList := by rw [hm]; decide +kernel
  unfold cppVersion
  rw [ht]
  simp only [isTrig]
  rfl

/-! ## Packing -/

theorem tinsert_perm (x : Text) (l : List Text) : (tinsert x l).Perm (x :: l) := by
  induction l with
  | nil => exact .refl _
  | cons y l ih =>
    rw [tinsert]; split
    · exact .refl _
    · exact (List.Perm.cons y ih).trans (.swap x y l)

theorem tsort_perm (l : List Text) : (tsort l).Perm l := by
  induction l with
  | nil => exact .refl _
  | cons x l ih => exact (tinsert_perm x _).trans (ih.cons x)

/-- insertion sort of indices -/
def iinsert (le : Nat → Nat → Bool) (x : Nat) : List Nat → List Nat
  | [] => [x]
  | y :: ys => if le x y then x :: y :: ys else y :: iinsert le x ys
def isort (le : Nat → Nat → Bool) : List Nat → List Nat
  | [] => []
  | x :: xs => iinsert le x (isort le xs)

theorem iinsert_map (f : Nat → Text) (le : Nat → Nat → Bool) (x : Nat) (l : List Nat) (h : ∀ y ∈ l, le x y = tle (f x) (f y)) :
    tinsert (f x) (l.map f) = (iinsert le x l).map f := by
  induction l with
  | nil => rfl
  | cons y l ih =>
    simp only [List.map_cons, tinsert, iinsert, h y (by simp)]
    split
    · rfl
    · simp [ih fun z hz => h z (by simp [hz])]

theorem isort_perm (le : Nat → Nat → Bool) (l : List Nat) : (isort le l).Perm l := by
  induction l with
  | nil => exact .refl _
  | cons x l ih =>
    have : ∀ l : List Nat, (iinsert le x l).Perm (x :: l) := by
      intro l
      induction l with
      | nil => exact .refl _
      | cons y l ih =>
        rw [iinsert]; split
        · exact .refl _
        · exact (List.Perm.cons y ih).trans (.swap x y l)
    exact (this _).trans (ih.cons x)

theorem isort_map (f : Nat → Text) (le : Nat → Nat → Bool) (l : List Nat) (hd : l.Nodup)
    (h : ∀ x ∈ l, ∀ y ∈ l, x ≠ y → le x y = tle (f x) (f y)) : tsort (l.map f) = (isort le l).map f := by
  induction l with
  | nil => rfl
  | cons x l ih =>
    rw [List.nodup_cons] at hd
    rw [List.map_cons, tsort, isort, ih hd.2 (fun a ha b hb => h a (by simp [ha]) b (by simp [hb]))]
    refine iinsert_map f le x _ fun y hy => ?_
    have hy' : y ∈ l := (isort_perm le l).mem_iff.1 hy
    exact h x (by simp) y (by simp [hy']) (fun e => hd.1 (e ▸ hy'))

/-- texts that differ before one of them ends -/
theorem tle_append {p q : Text} (h1 : ¬ p <+: q) (h2 : ¬ q <+: p) (x y : Text) : tle (p ++ x) (q ++ y) = tle p q := by
  induction p generalizing q with
  | nil => exact absurd List.nil_prefix h1
  | cons a p ih =>
    cases q with
    | nil => exact absurd List.nil_prefix h2
    | cons b q =>
      simp only [List.cons_append, tle]
      split
      · rename_i hab; subst hab
        exact ih (fun h => h1 (List.cons_prefix_cons.2 ⟨rfl, h⟩)) (fun h => h2 (List.cons_prefix_cons.2 ⟨rfl, h⟩))
      · rfl

/-- A table of versions whose columns are: a stem (the name of the unknown and the letter `s` or `v`) and then a number that varies. -/
def Columns (stems : List Text) (row : List Text) : Prop :=
  ∃ nums : List Text, nums.length = stems.length ∧ row = List.zipWith (· ++ ·) stems nums

/-- **C47, columns.** If no stem is the beginning of another, the sorting of the names puts the unknowns in the same order in every row: a
column of `solution_list` belongs to one unknown. -/
theorem C47_columns (stems : List Text) (hs : ∀ i j : Nat, i ≠ j → ∀ p q, stems[i]? = some p → stems[j]? = some q → ¬ p <+: q) :
    ∃ σ : List Nat, σ.Perm (List.range stems.length) ∧
      ∀ row, Columns stems row → (tsort row) = σ.map fun i => (row[i]?).getD [] := by
  let le : Nat → Nat → Bool := fun i j => tle ((stems[i]?).getD []) ((stems[j]?).getD [])
  refine ⟨isort le (List.range stems.length), isort_perm _ _, ?_⟩
  rintro row ⟨nums, hl, rfl⟩
  have hrow : ∀ i, i < stems.length → (List.zipWith (· ++ ·) stems nums)[i]?.getD [] = (stems[i]?).getD [] ++ (nums[i]?).getD [] := by
    intro i hi
    simp [hi, hl]
  have hmap : List.zipWith (· ++ ·) stems nums =
      (List.range stems.length).map fun i => ((List.zipWith (· ++ ·) stems nums)[i]?).getD [] := by
    apply List.ext_getElem
    · simp [hl]
    · intro i h1 h2
      simp only [List.length_zipWith] at h1
      simp [h1]
  conv_lhs => rw [hmap]
  refine isort_map _ le _ List.nodup_range ?_
  intro x hx y hy hxy
  have hx' := List.mem_range.1 hx
  have hy' := List.mem_range.1 hy
  rw [hrow x hx', hrow y hy', tle_append]
  · exact hs x y hxy _ _ (by rw [List.getElem?_eq_getElem hx']; rfl) (by rw [List.getElem?_eq_getElem hy']; rfl)
  · exact hs y x (Ne.symm hxy) _ _ (by rw [List.getElem?_eq_getElem hy']; rfl) (by rw [List.getElem?_eq_getElem hx']; rfl)

/-- the stems of joint variables, as they are named in the robots -/
example : ∀ i j : Nat, i ≠ j → ∀ p q, (["th_1s".toList, "d_2v".toList, "th_23v".toList, "th_2v".toList] : List Text)[i]? = some p →
    (["th_1s".toList, "d_2v".toList, "th_23v".toList, "th_2v".toList] : List Text)[j]? = some q → ¬ p <+: q := by
  intro i j hij p q hp hq
  have hi : i < 4 := by
    have := List.getElem?_eq_some_iff.1 hp; exact this.1
  have hj : j < 4 := by
    have := List.getElem?_eq_some_iff.1 hq; exact this.1
  rw [← startsWith_iff]
  match i, j, hi, hj with
  | 0, 0, _, _ | 1, 1, _, _ | 2, 2, _, _ | 3, 3, _, _ => exact absurd rfl hij
  | 0, 1, _, _ | 0, 2, _, _ | 0, 3, _, _ | 1, 0, _, _ | 1, 2, _, _ | 1, 3, _, _ | 2, 0, _, _ | 2, 1, _, _ | 2, 3, _, _
  | 3, 0, _, _ | 3, 1, _, _ | 3, 2, _, _ => cases hp; cases hq; decide

/-- The packing writes the sorted names of group `i` to `solution_list[i][0]`, `solution_list[i][1]`, …; every name once. -/
theorem C47_packing (i : Nat) (g : List Text) : (asgns (packRow i 0 (tsort g))).map (·.2) = tsort g ∧ (tsort g).Perm g := by
  refine ⟨?_, tsort_perm g⟩
  generalize 0 = j
  generalize tsort g = l
  induction l generalizing j with
  | nil => rfl
  | cons v vs ih => simp [packRow, asgns, ih]

/-! ## The first unknown -/

/-- the last character of a text that is no digit -/
def lastStem (t : Text) : Option Char := (t.reverse.dropWhile Char.isDigit).head?

theorem lastStem_num (a : Text) {c : Char} (hc : c.isDigit = false) (n : Nat) : lastStem (a ++ [c] ++ (toString n).toList) = some c := by
  have hd : ∀ x ∈ (toString n).toList.reverse, x.isDigit = true := by
    intro x hx
    rw [List.mem_reverse] at hx
    have : (toString n).toList = Nat.toDigits 10 n := by simp [toString, Nat.repr]
    rw [this] at hx
    exact Nat.isDigit_of_mem_toDigits (by omega) (by omega) hx
  unfold lastStem
  rw [List.reverse_append, List.reverse_append]
  have : ∀ (l r : Text), (∀ x ∈ l, x.isDigit = true) → (l ++ r).dropWhile Char.isDigit = r.dropWhile Char.isDigit := by
    intro l r h
    induction l with
    | nil => rfl
    | cons x l ih =>
      rw [List.cons_append, List.dropWhile_cons, if_pos (h x (by simp)), ih fun y hy => h y (by simp [hy])]
  rw [this _ _ hd]
  simp [hc]

theorem lastStem_s (u : String) (k : Nat) : lastStem (VName.s u k).render.toList = some 's' := by
  have := lastStem_num u.toList (c := 's') (by decide) k
  simpa [VName.render, String.toList_append] using this

theorem lastStem_v (u : String) (k : Nat) : lastStem (VName.v u k).render.toList = some 'v' := by
  have := lastStem_num u.toList (c := 'v') (by decide) k
  simpa [VName.render, String.toList_append] using this

theorem lastStem_bracket (t : Text) : lastStem (t ++ [']']) = some ']' := by
  simp [lastStem]

theorem rowEqns_lhs {nsols row : Nat} {f : String → Option Sym.Expr} : ∀ {us : List SolUnk} {es : List FEqn},
    rowEqns nsols row f us = .ok es → ∀ e ∈ es, ∃ u, e.lhs = (VName.v u (row + 1)).render
  | [], es, h => by cases h; simp
  | u :: us, es, h => by
    rw [rowEqns] at h
    split at h
    · cases h
    · split at h
      · cases h
      · rename_i hes; cases h
        intro e he
        rcases List.mem_cons.1 he with rfl | he
        · exact ⟨u.name, rfl⟩
        · exact rowEqns_lhs hes e he

theorem rowsEqns_lhs {us : List SolUnk} {nsols : Nat} : ∀ {rows : List Row} {row : Nat} {t : List (List FEqn)},
    rowsEqns us nsols row rows = .ok t → ∀ es ∈ t, ∀ e ∈ es, ∃ u i, e.lhs = (VName.v u i).render
  | [], _, t, h => by cases h; simp
  | r :: rs, row, t, h => by
    rw [rowsEqns] at h
    split at h
    · cases h
    · split at h
      · cases h
      · rename_i hes _ _ hts; cases h
        intro es' hes' e he
        rcases List.mem_cons.1 hes' with rfl | hes'
        · obtain ⟨u, hu⟩ := rowEqns_lhs hes e he; exact ⟨u, _, hu⟩
        · exact rowsEqns_lhs hts es' hes' e he

theorem make_lhs {us : List SolUnk} {M : List Row} {t : List (List FEqn)} (h : makeLHSVersions us M = .ok t) :
    ∀ es ∈ t, ∀ e ∈ es, ∃ u i, e.lhs = (VName.v u i).render := by
  unfold makeLHSVersions at h
  split at h
  · cases h
  · split at h
    · cases h
    · split at h
      · cases h
      · exact rowsEqns_lhs h

/-- the matrix as the generators read it; `str` prints an expression -/
def textMat (str : Sym.Expr → Text) (t : List (List FEqn)) : FMat := t.map fun es => es.map fun e => (e.lhs.toList, str e.rhs)

theorem version_lhs (n : GNode) (e : Text × Text) : ∀ p ∈ asgns (cppVersion n e), p.1 = e.1 := by
  have hone : ∀ b : Bool, ∀ p ∈ asgns (if b = true then [Op.asgn e.1 e.2] else []), p.1 = e.1 := by
    intro b p hp; cases b <;> simp [asgns] at hp; simp [hp]
  have htrig : ∀ b : Bool, ∀ p ∈ asgns (if b = true then
      [.line ("argument = ".toList ++ n.arg), .line "if (solvable_pose && fabs(argument) > 1)".toList, .push,
     .line "solvable_pose = False; ".toList, .pop, .line "else if (solvable_pose)".toList, .push,
     .asgn e.1 (n.method ++ "(argument)".toList), .pop] else []), p.1 = e.1 := by
    intro b p hp; cases b <;> simp [asgns] at hp; simp [hp]
  intro p hp
  simp only [cppVersion, asgns_append, List.mem_append] at hp
  rcases hp with ((((hp | hp) | hp) | hp) | hp) | hp
  · simp [asgns] at hp
  · exact htrig _ p hp
  · exact hone _ p hp
  · exact hone _ p hp
  · exact hone _ p hp
  · exact hone _ p hp

theorem asgns_flatten (ls : List (List Op)) : ∀ p ∈ asgns ls.flatten, ∃ l ∈ ls, p ∈ asgns l := by
  induction ls with
  | nil => simp [asgns]
  | cons l ls ih =>
    intro p hp
    rw [List.flatten_cons, asgns_append, List.mem_append] at hp
    rcases hp with hp | hp
    · exact ⟨l, by simp, hp⟩
    · obtain ⟨l', h1, h2⟩ := ih p hp; exact ⟨l', by simp [h1], h2⟩

theorem pyGet_mem {α : Type} {l : List α} {i : Int} {a : α} (h : pyGet l i = some a) : a ∈ l := by
  unfold pyGet at h
  split at h
  · exact List.mem_of_getElem? h
  · split at h
    · exact List.mem_of_getElem? h
    · cases h

theorem pack_lhs (gs : List (List Text)) (i : Nat) : ∀ p ∈ asgns (packRows i gs), lastStem p.1 = some ']' := by
  induction gs generalizing i with
  | nil => simp [packRows, asgns]
  | cons g gs ih =>
    intro p hp
    rw [packRows, asgns_append, List.mem_append] at hp
    rcases hp with hp | hp
    · revert hp
      generalize 0 = j
      generalize tsort g = l
      induction l generalizing j with
      | nil => simp [packRow, asgns]
      | cons v vs ih' =>
        intro hp
        simp only [packRow, asgns, List.mem_cons] at hp
        rcases hp with rfl | hp
        · exact lastStem_bracket _
        · exact ih' _ hp
    · exact ih _ p hp

/-- **C47 violated, for every solution.** The name of the first solved unknown that the table of solutions, and hence the packing, uses in
any row, is never assigned in the C++ program: the assignments are to its versions. -/
theorem C47_first_unknown_violation (str : Sym.Expr → Text) (u : SolUnk) (us : List SolUnk)
    (t : List (List FEqn)) (ht : makeLHSVersions (u :: us) (createSolutionSet (u :: us)) = .ok t)
    (nodes : List GNode) (groups : List (List Text)) (ops : List Op) (h : cppCode nodes (textMat str t) groups = some ops)
    (k : Nat) : (VName.s u.name k).render.toList ∉ (asgns ops).map (·.1) := by
  have hl := make_lhs ht
  intro hmem
  obtain ⟨p, hp, hpe⟩ := List.mem_map.1 hmem
  have hs := lastStem_s u.name k
  rw [← hpe] at hs
  simp only [cppCode, Option.map_eq_some_iff] at h
  obtain ⟨body, hb, rfl⟩ := h
  have h1 : asgns cppMain = [] := rfl
  simp only [asgns_append, h1, asgns, List.append_nil, List.nil_append, List.mem_append] at hp
  rcases hp with hp | hp
  · simp only [cppNodes, Option.map_eq_some_iff] at hb
    obtain ⟨bs, hbs, rfl⟩ := hb
    obtain ⟨l, hl1, hl2⟩ := asgns_flatten bs p hp
    obtain ⟨n, _, hn⟩ := mapM_mem hbs l hl1
    simp only [cppNode, Option.map_eq_some_iff] at hn
    obtain ⟨rs, hrs, rfl⟩ := hn
    obtain ⟨l', hl3, hl4⟩ := asgns_flatten rs p hl2
    obtain ⟨row, hrow, hr⟩ := mapM_mem hrs l' hl3
    simp only [Option.map_eq_some_iff] at hr
    obtain ⟨e, he, rfl⟩ := hr
    have he' := pyGet_mem he
    simp only [textMat, List.mem_map] at hrow
    obtain ⟨es, hes, rfl⟩ := hrow
    obtain ⟨fe, hfe, rfl⟩ := List.mem_map.1 he'
    obtain ⟨w, i, hw⟩ := hl es hes fe hfe
    have := version_lhs n _ p hl4
    simp only at this
    rw [this, hw, lastStem_v] at hs
    cases hs
  · rw [pack_lhs groups 0 p hp] at hs; cases hs

theorem mem_dup {α : Type} (M : List α) (n : Nat) (a : α) (h : a ∈ dup M n) : a ∈ M := by
  induction n generalizing M with
  | zero => exact h
  | succ n ih => simpa using ih _ h

/-- …and the packing does use it: the first name of every row of the table is one. -/
theorem C47_first_unknown_used (u : SolUnk) (us : List SolUnk) (hin : TableInput u us) :
    ∀ r ∈ createSolutionSet (u :: us), ∃ k, r.head? = some (.s u.name k) := by
  have hv : u.versionNames ≠ [] := by
    rw [hin.2.1]; intro h
    have := congrArg List.length h
    simp [solNames] at this; have := hin.2.2; omega
  rw [create_eq u us hin.1 hv]
  have h0 : ∀ r ∈ u.versionNames.map (fun vn => [vn]), ∃ k, r.head? = some (.s u.name k) := by
    rw [hin.2.1]
    intro r hr
    simp only [solNames, List.map_map, List.mem_map] at hr
    obtain ⟨k, _, rfl⟩ := hr
    exact ⟨_, rfl⟩
  clear hin hv
  generalize u.versionNames.map (fun vn => [vn]) = M at h0
  induction us generalizing M with
  | nil => exact h0
  | cons v us ih =>
    refine ih _ ?_
    intro r hr
    obtain ⟨i, hi⟩ := List.getElem?_of_mem hr
    simp only [colStep, List.getElem?_mapIdx, Option.map_eq_some_iff] at hi
    obtain ⟨r0, h1, rfl⟩ := hi
    obtain ⟨k, hk⟩ := h0 r0 (mem_dup _ _ _ (List.mem_of_getElem? h1))
    exact ⟨k, by simp [List.head?_append, hk]⟩

example : TableInput (unk1 "a" 2) [unk1 "b" 2] ∧
    (createSolutionSet [unk1 "a" 2, unk1 "b" 2]).map (·.head?) = [some (.s "a" 1), some (.s "a" 2), some (.s "a" 2), some (.s "a" 1)] :=
  ⟨⟨by decide, rfl, by decide⟩, by decide +kernel⟩

end Verif.Out
