import Verif.Sol.VersionsLemmas
/-!
# C16, C17, C18: the solution table
-/
namespace Verif.Sol
open Verif.Sym

/-! ## Specification -/

/-- A combination of branches: for each unknown the (0-based) number of one of its solutions. -/
def Choice (us : List SolUnk) (c : List Nat) : Prop :=
  c.length = us.length ∧ ∀ (i : Nat) (u : SolUnk) (x : Nat), us[i]? = some u → c[i]? = some x → x < u.nsols

/-- The solution that an entry stands for: solution name `…s(k+1)` is solution `k`; version `…v(i+1)` is version `i`,
and versions cycle through the solutions (kin_cl.py:193, ik_classes.py:221). -/
def pick (u : SolUnk) : VName → Nat
  | .s _ k => k - 1
  | .v _ i => (i - 1) % u.nsols

/-- The combination a row stands for. -/
def picks (us : List SolUnk) (r : Row) : List Nat := List.zipWith pick us r

/-- The product of the numbers of solutions. -/
def prodSols (us : List SolUnk) : Nat := us.foldr (fun u n => u.nsols * n) 1

/-- The solution names `s1 … sn` of an unknown, as `set_solved` makes them for an unknown without dependencies. -/
def solNames (u : SolUnk) : List VName := (List.range u.nsols).map fun k => .s u.name (k + 1)

/-- A well-formed input: at least one unknown, different names, one version per solution for the first one. -/
def TableInput (u : SolUnk) (us : List SolUnk) : Prop :=
  ((u :: us).map (·.name)).Nodup ∧ u.versionNames = solNames u ∧ 0 < u.nsols

/-- Every combination of branches is the combination of exactly one row. -/
def ExactlyOnce (us : List SolUnk) (M : List Row) : Prop :=
  (∀ (k : Nat) r, M[k]? = some r → Choice us (picks us r)) ∧
  ∀ c, Choice us c → ∃ k r, M[k]? = some r ∧ picks us r = c ∧
    ∀ (k' : Nat) r', M[k']? = some r' → picks us r' = c → k' = k

/-! ## Lemmas -/

theorem picks_append {us : List SolUnk} {u : SolUnk} {r : Row} {e : VName} (h : r.length = us.length) :
    picks (us ++ [u]) (r ++ [e]) = picks us r ++ [pick u e] := by
  simp only [picks]
  rw [List.zipWith_append (by omega)]; rfl

theorem choice_append {us : List SolUnk} {u : SolUnk} {c : List Nat} {x : Nat} (h : Choice us c) (hx : x < u.nsols) :
    Choice (us ++ [u]) (c ++ [x]) := by
  refine ⟨by simp [h.1], ?_⟩
  intro i u' x' h1 h2
  by_cases hi : i < us.length
  · rw [List.getElem?_append_left hi] at h1
    rw [List.getElem?_append_left (by rw [h.1]; exact hi)] at h2
    exact h.2 i u' x' h1 h2
  · rw [List.getElem?_append_right (by omega)] at h1
    rw [List.getElem?_append_right (by rw [h.1]; omega)] at h2
    rw [h.1] at h2
    have : i - us.length = 0 := by
      have := (List.getElem?_eq_some_iff.1 h1).1
      simp at this; omega
    rw [this] at h1 h2
    simp at h1 h2
    rw [← h1, ← h2]; exact hx

theorem choice_split {us : List SolUnk} {u : SolUnk} {c : List Nat} (h : Choice (us ++ [u]) c) :
    ∃ c0 x, c = c0 ++ [x] ∧ Choice us c0 ∧ x < u.nsols := by
  have hl := h.1
  simp only [List.length_append, List.length_cons, List.length_nil] at hl
  cases hc : c.reverse with
  | nil => rw [List.reverse_eq_nil_iff] at hc; rw [hc] at hl; simp at hl
  | cons x c' =>
    have hc2 : c = c'.reverse ++ [x] := by
      have := congrArg List.reverse hc; simpa using this
    subst hc2
    simp at hl
    refine ⟨c'.reverse, x, rfl, ⟨by simp [hl], ?_⟩, ?_⟩
    · intro i u' x' h1 h2
      have hi := (List.getElem?_eq_some_iff.1 h1).1
      refine h.2 i u' x' ?_ ?_
      · rw [List.getElem?_append_left hi]; exact h1
      · rw [List.getElem?_append_left (by simp [hl]; exact hi)]; exact h2
    · refine h.2 us.length u x ?_ ?_
      · simp
      · rw [List.getElem?_append_right (by simp [hl])]; simp [hl]

/-- All rows have one entry per unknown. -/
def Rect (us : List SolUnk) (M : List Row) : Prop := ∀ (k : Nat) r, M[k]? = some r → r.length = us.length

theorem mapIdx_get {M : List Row} {u : String} {k : Nat} {r : Row}
    (h : (M.mapIdx fun i r => r ++ [VName.v u (i + 1)])[k]? = some r) :
    ∃ r0, M[k]? = some r0 ∧ r = r0 ++ [.v u (k + 1)] := by
  rw [List.getElem?_mapIdx] at h
  cases hM : M[k]? with
  | none => rw [hM] at h; simp at h
  | some r0 => rw [hM] at h; simp at h; exact ⟨r0, rfl, h.symm⟩

theorem mapIdx_get' {M : List Row} {u : String} {k : Nat} {r0 : Row} (h : M[k]? = some r0) :
    (M.mapIdx fun i r => r ++ [VName.v u (i + 1)])[k]? = some (r0 ++ [.v u (k + 1)]) := by
  rw [List.getElem?_mapIdx, h]; rfl

/-- Doubling: the row at `k` and the row at the mirrored position. -/
theorem double_get {M : List Row} {k : Nat} {r : Row} :
    (M ++ M.reverse)[k]? = some r ↔
      (k < M.length ∧ M[k]? = some r) ∨
      (M.length ≤ k ∧ k < 2 * M.length ∧ M[2 * M.length - 1 - k]? = some r) := by
  by_cases hk : k < M.length
  · rw [List.getElem?_append_left hk]
    constructor
    · exact fun h => .inl ⟨hk, h⟩
    · rintro (h | h)
      · exact h.2
      · omega
  · rw [List.getElem?_append_right (by omega)]
    by_cases hk2 : k < 2 * M.length
    · rw [List.getElem?_reverse (by omega), show M.length - 1 - (k - M.length) = 2 * M.length - 1 - k by omega]
      constructor
      · exact fun h => .inr ⟨by omega, hk2, h⟩
      · rintro (h | h)
        · omega
        · exact h.2.2
    · rw [List.getElem?_eq_none (by simp; omega)]
      constructor
      · intro h; cases h
      · rintro (h | h) <;> omega

theorem colStep_one (us : List SolUnk) (u : SolUnk) (M : List Row) (hu : u.nsols = 1)
    (hr : Rect us M) (he : ExactlyOnce us M) : Rect (us ++ [u]) (colStep M u) ∧ ExactlyOnce (us ++ [u]) (colStep M u) := by
  simp only [colStep, hu, Nat.sub_self, dup]
  refine ⟨?_, ?_, ?_⟩
  · intro k r h
    obtain ⟨r0, h0, rfl⟩ := mapIdx_get h
    simp [hr k r0 h0]
  · intro k r h
    obtain ⟨r0, h0, rfl⟩ := mapIdx_get h
    rw [picks_append (hr k r0 h0)]
    exact choice_append (he.1 k r0 h0) (by simp [pick, hu, Nat.mod_one])
  · intro c hc
    obtain ⟨c0, x, rfl, hc0, hx⟩ := choice_split hc
    obtain ⟨k, r0, h1, h2, h3⟩ := he.2 c0 hc0
    refine ⟨k, _, mapIdx_get' h1, ?_, ?_⟩
    · rw [picks_append (hr k r0 h1), h2]
      simp [pick, hu, Nat.mod_one]; omega
    · intro k' r' h' hp
      obtain ⟨r1, g1, rfl⟩ := mapIdx_get h'
      rw [picks_append (hr k' r1 g1)] at hp
      exact h3 k' r1 g1 (List.append_inj_left' hp rfl)

theorem colStep_two (us : List SolUnk) (u : SolUnk) (M : List Row) (hu : u.nsols = 2)
    (hr : Rect us M) (he : ExactlyOnce us M) : Rect (us ++ [u]) (colStep M u) ∧ ExactlyOnce (us ++ [u]) (colStep M u) := by
  simp only [colStep, hu, show 2 - 1 = 1 from rfl, dup]
  have hbase : ∀ (k : Nat) r0, (M ++ M.reverse)[k]? = some r0 → ∃ j, M[j]? = some r0 ∧ (k = j ∨ k = 2 * M.length - 1 - j) := by
    intro k r0 h
    rcases double_get.1 h with ⟨_, h⟩ | ⟨h1, h2, h3⟩
    · exact ⟨k, h, .inl rfl⟩
    · exact ⟨_, h3, .inr (by omega)⟩
  refine ⟨?_, ?_, ?_⟩
  · intro k r h
    obtain ⟨r0, h0, rfl⟩ := mapIdx_get h
    obtain ⟨j, hj, _⟩ := hbase k r0 h0
    simp [hr j r0 hj]
  · intro k r h
    obtain ⟨r0, h0, rfl⟩ := mapIdx_get h
    obtain ⟨j, hj, _⟩ := hbase k r0 h0
    rw [picks_append (hr j r0 hj)]
    exact choice_append (he.1 j r0 hj) (by simp [pick, hu]; omega)
  · intro c hc
    obtain ⟨c0, x, rfl, hc0, hx⟩ := choice_split hc
    obtain ⟨k, r0, h1, h2, h3⟩ := he.2 c0 hc0
    have hk : k < M.length := (List.getElem?_eq_some_iff.1 h1).1
    -- the position with the right parity
    obtain ⟨p, hp1, hp2, hp3⟩ : ∃ p, (M ++ M.reverse)[p]? = some r0 ∧ p % 2 = x ∧ (p = k ∨ p = 2 * M.length - 1 - k) := by
      by_cases hpar : k % 2 = x
      · exact ⟨k, double_get.2 (.inl ⟨hk, h1⟩), hpar, .inl rfl⟩
      · refine ⟨2 * M.length - 1 - k, double_get.2 (.inr ⟨by omega, by omega, ?_⟩), by omega, .inr rfl⟩
        rw [show 2 * M.length - 1 - (2 * M.length - 1 - k) = k by omega]; exact h1
    refine ⟨p, _, mapIdx_get' hp1, ?_, ?_⟩
    · rw [picks_append (hr k r0 h1), h2]
      simp [pick, hu, hp2]
    · intro k' r' h' hpk
      obtain ⟨r1, g1, rfl⟩ := mapIdx_get h'
      obtain ⟨j, hj, hjk⟩ := hbase k' r1 g1
      have hjl : j < M.length := (List.getElem?_eq_some_iff.1 hj).1
      rw [picks_append (hr j r1 hj)] at hpk
      have e1 := List.append_inj_left' hpk rfl
      have e2 := List.append_inj_right' hpk rfl
      have := h3 j r1 hj e1
      subst this
      simp [pick, hu] at e2
      omega

theorem fold_once : ∀ (us pre : List SolUnk) (M : List Row), (∀ u ∈ us, u.nsols = 1 ∨ u.nsols = 2) →
    Rect pre M → ExactlyOnce pre M →
    Rect (pre ++ us) (us.foldl colStep M) ∧ ExactlyOnce (pre ++ us) (us.foldl colStep M)
  | [], pre, M, _, hr, he => by simpa using ⟨hr, he⟩
  | u :: us, pre, M, hn, hr, he => by
    rw [show pre ++ u :: us = (pre ++ [u]) ++ us by simp, List.foldl_cons]
    have h : Rect (pre ++ [u]) (colStep M u) ∧ ExactlyOnce (pre ++ [u]) (colStep M u) := by
      rcases hn u (by simp) with hu | hu
      · exact colStep_one pre u M hu hr he
      · exact colStep_two pre u M hu hr he
    exact fold_once us (pre ++ [u]) _ (fun u' h' => hn u' (by simp [h'])) h.1 h.2

theorem first_once (u : SolUnk) : Rect [u] ((solNames u).map fun vn => [vn]) ∧
    ExactlyOnce [u] ((solNames u).map fun vn => [vn]) := by
  have hget : ∀ k r, ((solNames u).map fun vn => [vn])[k]? = some r ↔ k < u.nsols ∧ r = [.s u.name (k + 1)] := by
    intro k r
    simp only [solNames, List.map_map]
    by_cases hk : k < u.nsols
    · simp [hk, eq_comm]
    · simp [hk]
  refine ⟨?_, ?_, ?_⟩
  · intro k r h
    rw [(hget k r).1 h |>.2]; rfl
  · intro k r h
    obtain ⟨h1, rfl⟩ := (hget k r).1 h
    refine ⟨rfl, ?_⟩
    intro i u' x h2 h3
    cases i with
    | zero => simp [picks, pick] at h2 h3; rw [← h2, ← h3]; exact h1
    | succ i => simp at h2
  · intro c hc
    obtain ⟨hl, hlt⟩ := hc
    match c, hl with
    | [x], _ =>
      have hx := hlt 0 u x (by simp) (by simp)
      refine ⟨x, _, (hget _ _).2 ⟨hx, rfl⟩, by simp [picks, pick], ?_⟩
      intro k' r' h' hp
      obtain ⟨h1, rfl⟩ := (hget k' r').1 h'
      simpa [picks, pick] using hp

theorem fold_length : ∀ (us : List SolUnk) (M : List Row),
    (us.foldl colStep M).length = us.foldr (fun u n => 2 ^ (u.nsols - 1) * n) M.length
  | [], M => rfl
  | u :: us, M => by
    simp only [List.foldl_cons, List.foldr_cons]
    rw [fold_length us, length_colStep]
    induction us with
    | nil => rfl
    | cons v vs ih => simp only [List.foldr_cons]; rw [ih, Nat.mul_left_comm]

/-! ## C16 -/

/-- C16 for unknowns with one or two solutions after the first (which may have any number): the table has as many
rows as there are combinations, and every combination of branches is the one of exactly one row.
Missing for the full C16: a later unknown with three or more solutions, where it is false (below). -/
theorem C16_solution_table_partial (u : SolUnk) (us : List SolUnk) (hin : TableInput u us)
    (hn : ∀ v ∈ us, v.nsols = 1 ∨ v.nsols = 2) :
    ExactlyOnce (u :: us) (createSolutionSet (u :: us)) ∧
    (createSolutionSet (u :: us)).length = prodSols (u :: us) := by
  have hv : u.versionNames ≠ [] := by
    rw [hin.2.1]; intro h
    have := congrArg List.length h
    simp [solNames] at this; have := hin.2.2; omega
  rw [create_eq u us hin.1 hv, hin.2.1]
  constructor
  · have h := first_once u
    have := (fold_once us [u] _ hn h.1 h.2).2
    simpa using this
  · rw [fold_length]
    simp only [List.length_map, solNames, List.length_range, prodSols, List.foldr_cons]
    clear hv hin
    induction us with
    | nil => simp
    | cons v vs ih =>
      simp only [List.foldr_cons]
      rw [ih (fun w hw => hn w (by simp [hw]))]
      rcases hn v (by simp) with h | h <;> rw [h] <;> simp [Nat.mul_left_comm]

/-- C16: the rows are pairwise different, so the set of tuples has as many elements as the list. -/
theorem C16_rows_distinct_partial (u : SolUnk) (us : List SolUnk) (hin : TableInput u us)
    (hn : ∀ v ∈ us, v.nsols = 1 ∨ v.nsols = 2) : (createSolutionSet (u :: us)).Nodup := by
  obtain ⟨⟨h1, h2⟩, _⟩ := C16_solution_table_partial u us hin hn
  rw [List.nodup_iff_pairwise_ne, List.pairwise_iff_getElem]
  intro i j hi hj hij heq
  have gi := List.getElem?_eq_getElem hi
  have gj := List.getElem?_eq_getElem hj
  obtain ⟨k, r, _, _, h⟩ := h2 _ (h1 i _ gi)
  have e1 := h i _ gi rfl
  have e2 := h j _ gj (by rw [heq])
  omega

/-- The number of rows for *any* numbers of solutions: an unknown with n solutions multiplies the rows by 2^(n-1). -/
theorem C16_row_count (u : SolUnk) (us : List SolUnk) (hin : TableInput u us) :
    (createSolutionSet (u :: us)).length = us.foldr (fun v n => 2 ^ (v.nsols - 1) * n) u.nsols := by
  have hv : u.versionNames ≠ [] := by
    rw [hin.2.1]; intro h
    have := congrArg List.length h
    simp [solNames] at this; have := hin.2.2; omega
  rw [create_eq u us hin.1 hv, fold_length, hin.2.1]
  simp [solNames]

def unk1 (name : String) (n : Nat) : SolUnk :=
  { name := name, nsols := n, solutions := [], versionNames := (List.range n).map fun k => .s name (k + 1) }

/-- C16 is false of the code for a later unknown with three solutions: four rows instead of three, and one
combination twice. -/
theorem C16_three_solutions_violation :
    TableInput (unk1 "a" 1) [unk1 "b" 3] ∧
    (createSolutionSet [unk1 "a" 1, unk1 "b" 3]).length = 4 ∧ prodSols [unk1 "a" 1, unk1 "b" 3] = 3 ∧
    ¬ ExactlyOnce [unk1 "a" 1, unk1 "b" 3] (createSolutionSet [unk1 "a" 1, unk1 "b" 3]) := by
  have hM : createSolutionSet [unk1 "a" 1, unk1 "b" 3] =
      [[.s "a" 1, .v "b" 1], [.s "a" 1, .v "b" 2], [.s "a" 1, .v "b" 3], [.s "a" 1, .v "b" 4]] := by decide +kernel
  refine ⟨⟨by decide, rfl, by decide⟩, by rw [hM]; rfl, by decide, ?_⟩
  rintro ⟨h1, h2⟩
  rw [hM] at h1 h2
  obtain ⟨k, r, _, _, h⟩ := h2 _ (h1 0 _ rfl)
  have e1 := h 0 _ rfl rfl
  have e2 := h 3 _ rfl (by decide)
  omega

/-- Non-vacuity: 3 · 1 · 2 · 2 = 12 rows. -/
example : TableInput (unk1 "a" 3) [unk1 "b" 1, unk1 "c" 2, unk1 "d" 2] ∧
    (createSolutionSet [unk1 "a" 3, unk1 "b" 1, unk1 "c" 2, unk1 "d" 2]).length = 12 :=
  ⟨⟨by decide, rfl, by decide⟩, by decide +kernel⟩

/-! ## C17 -/

/-- C17. For every list of solved unknowns (any numbers of solutions, an unknown may even occur twice): each row has
exactly one entry per unknown, and the entry in column c is a name of the c-th unknown. -/
theorem C17_rows_labelled (us : List SolUnk) (hv : ∀ u ∈ us, u.versionNames ≠ [])
    (hname : ∀ u ∈ us, ∀ e ∈ u.versionNames, e.unk = u.name) :
    ∀ r ∈ createSolutionSet us, r.map (·.unk) = us.map (·.name) := by
  intro r hr
  have := fold_labelled us [] [] (fun _ => []) (by simp) (by simp) (by simp) hname hv r hr
  simpa [Labelled] using this

example : (∀ u ∈ [unk1 "a" 2, unk1 "b" 2], u.versionNames ≠ []) ∧
    (∀ u ∈ [unk1 "a" 2, unk1 "b" 2], ∀ e ∈ u.versionNames, e.unk = u.name) ∧
    createSolutionSet [unk1 "a" 2, unk1 "b" 2] = [[.s "a" 1, .v "b" 1], [.s "a" 2, .v "b" 2], [.s "a" 2, .v "b" 3],
      [.s "a" 1, .v "b" 4]] := by
  refine ⟨by decide, by decide, by decide +kernel⟩

/-! ## C18 -/

theorem rowEqns_spec {nsols row : Nat} {f : String → Option Expr} : ∀ {us : List SolUnk} {es : List FEqn},
    rowEqns nsols row f us = .ok es → es.length = us.length ∧
      ∀ (c : Nat) u, us[c]? = some u → ∃ sol, u.solutions[row % nsols]? = some sol ∧
        es[c]? = some ⟨(VName.v u.name (row + 1)).render, sol.subs f⟩
  | [], es, h => by simp only [rowEqns, Except.ok.injEq] at h; subst h; simp
  | u :: us, es, h => by
    simp only [rowEqns] at h
    cases hs : u.solutions[row % nsols]? with
    | none => rw [hs] at h; cases h
    | some sol =>
      rw [hs] at h; simp only at h
      cases hr : rowEqns nsols row f us with
      | error e => rw [hr] at h; cases h
      | ok es' =>
        rw [hr] at h; simp only [Except.ok.injEq] at h; subst h
        obtain ⟨h1, h2⟩ := rowEqns_spec hr
        refine ⟨by simp [h1], ?_⟩
        intro c u' hu'
        cases c with
        | zero => simp at hu'; subst hu'; exact ⟨sol, hs, rfl⟩
        | succ c => simp at hu'; simpa using h2 c u' hu'

theorem rowsEqns_spec {us : List SolUnk} {nsols : Nat} : ∀ {M : List Row} {row : Nat} {F : List (List FEqn)},
    rowsEqns us nsols row M = .ok F → F.length = M.length ∧
      ∀ (k : Nat) r, M[k]? = some r → ∃ es, F[k]? = some es ∧ rowEqns nsols (row + k) (subdict us r) us = .ok es
  | [], row, F, h => by simp only [rowsEqns, Except.ok.injEq] at h; subst h; simp
  | r :: rs, row, F, h => by
    simp only [rowsEqns] at h
    cases hs : rowEqns nsols row (subdict us r) us with
    | error e => rw [hs] at h; cases h
    | ok es =>
      rw [hs] at h; simp only at h
      cases hr : rowsEqns us nsols (row + 1) rs with
      | error e => rw [hr] at h; cases h
      | ok t =>
        rw [hr] at h; simp only [Except.ok.injEq] at h; subst h
        obtain ⟨h1, h2⟩ := rowsEqns_spec hr
        refine ⟨by simp [h1], ?_⟩
        intro k r' hk
        cases k with
        | zero => simp at hk; subst hk; exact ⟨es, rfl, hs⟩
        | succ k =>
          simp at hk
          obtain ⟨es', e1, e2⟩ := h2 k r' hk
          exact ⟨es', by simpa using e1, by rw [show row + (k + 1) = row + 1 + k by omega]; exact e2⟩

/-- What `make_LHS_versions` computes, exactly: one equation per row and unknown, its left side is version `row+1` of
the unknown, its right side is solution number `row mod n` — where n is the number of solutions of the *last* solved
unknown — with the unknowns replaced by the row's names. -/
theorem C18_equations_exact {us : List SolUnk} {M : List Row} {F : List (List FEqn)} {l : SolUnk}
    (hl : us.getLast? = some l) (h : makeLHSVersions us M = .ok F) :
    F.length = M.length ∧ ∀ (k : Nat) r, M[k]? = some r → ∃ es, F[k]? = some es ∧ es.length = us.length ∧
      ∀ (c : Nat) u, us[c]? = some u → ∃ sol, u.solutions[k % l.nsols]? = some sol ∧
        es[c]? = some ⟨(VName.v u.name (k + 1)).render, sol.subs (subdict us r)⟩ := by
  cases M with
  | nil => simp [makeLHSVersions] at h
  | cons r0 rs =>
    simp only [makeLHSVersions, hl] at h
    split at h
    · cases h
    · obtain ⟨h1, h2⟩ := rowsEqns_spec h
      refine ⟨h1, ?_⟩
      intro k r hk
      obtain ⟨es, e1, e2⟩ := h2 k r hk
      rw [Nat.zero_add] at e2
      obtain ⟨h3, h4⟩ := rowEqns_spec e2
      exact ⟨es, e1, h3, h4⟩

/-- C18 is false of the code (1): if the last solved unknown has one solution, then *every* equation, for every unknown
and every row, uses solution number 0; the other branches of the other unknowns are never emitted. -/
theorem C18_last_single_drops_branches {us : List SolUnk} {M : List Row} {F : List (List FEqn)} {l : SolUnk}
    (hl : us.getLast? = some l) (h1 : l.nsols = 1) (h : makeLHSVersions us M = .ok F) :
    ∀ (k : Nat) r, M[k]? = some r → ∃ es, F[k]? = some es ∧
      ∀ (c : Nat) u, us[c]? = some u → ∃ sol, u.solutions[0]? = some sol ∧
        es[c]? = some ⟨(VName.v u.name (k + 1)).render, sol.subs (subdict us r)⟩ := by
  intro k r hk
  obtain ⟨es, e1, _, e3⟩ := (C18_equations_exact hl h).2 k r hk
  refine ⟨es, e1, fun c u hu => ?_⟩
  have := e3 c u hu
  rwa [h1, Nat.mod_one] at this

theorem rowsEqns_err {us : List SolUnk} {nsols : Nat} {v : SolUnk} (hv : v ∈ us) : ∀ {M : List Row} {row k : Nat},
    k < M.length → v.solutions.length ≤ (row + k) % nsols →
    rowsEqns us nsols row M = .error .indexError := by
  have hrow : ∀ (us : List SolUnk), ∀ {row : Nat} {f}, rowEqns nsols row f us = .error .indexError ∨
      ∃ es, rowEqns nsols row f us = .ok es := by
    intro us row f
    induction us with
    | nil => exact .inr ⟨_, rfl⟩
    | cons u us ih =>
      simp only [rowEqns]
      cases u.solutions[row % nsols]? with
      | none => exact .inl rfl
      | some sol =>
        rcases ih with ih | ⟨es, ih⟩
        · rw [ih]; exact .inl rfl
        · rw [ih]; exact .inr ⟨_, rfl⟩
  have hbad : ∀ (us : List SolUnk), v ∈ us → ∀ {row : Nat} {f}, v.solutions.length ≤ row % nsols →
      rowEqns nsols row f us = .error .indexError := by
    intro us hv row f hlt
    rcases hrow us (row := row) (f := f) with h | ⟨es, h⟩
    · exact h
    · obtain ⟨c, hc⟩ := List.getElem?_of_mem hv
      obtain ⟨sol, h1, _⟩ := (rowEqns_spec h).2 c v hc
      have := (List.getElem?_eq_some_iff.1 h1).1
      omega
  intro M
  induction M with
  | nil => intro row k hk; simp at hk
  | cons r rs ih =>
    intro row k hk hlt
    simp only [rowsEqns]
    rcases hrow us (row := row) (f := subdict us r) with h | ⟨es, h⟩
    · rw [h]
    · rw [h]; simp only
      cases k with
      | zero => rw [hbad us hv (by simpa using hlt)] at h; cases h
      | succ k =>
        rw [ih (k := k) (by simp at hk; omega) (by rw [show row + 1 + k = row + (k + 1) by omega]; exact hlt)]

/-- C18 is false of the code (2): if the last solved unknown has two solutions, some other has one, and the table has
at least two rows, the program stops with an IndexError. -/
theorem C18_index_error_violation {us : List SolUnk} {M : List Row} {l v : SolUnk} (hl : us.getLast? = some l)
    (h2 : l.nsols = 2) (hv : v ∈ us) (h1 : v.solutions.length = 1) (hM : 2 ≤ M.length) :
    makeLHSVersions us M = .error .indexError := by
  cases M with
  | nil => simp at hM
  | cons r rs =>
    simp only [makeLHSVersions, hl, h2]
    rw [if_neg (by decide)]
    exact rowsEqns_err hv (k := 1) (by simp at hM ⊢; omega) (by rw [h1]; decide)

/-- Version names in the table point backwards: the name in row `k`, column `d ≥ 1` is version `i+1` of the unknown for
some row `i ≤ k`, and row `i` agrees with row `k` up to and including column `d`. -/
def Backward (us : List SolUnk) (M : List Row) : Prop :=
  ∀ (k : Nat) r, M[k]? = some r → ∀ (d : Nat) u, 1 ≤ d → us[d]? = some u →
    ∃ i r', i ≤ k ∧ M[i]? = some r' ∧ r[d]? = some (.v u.name (i + 1)) ∧ r'.take (d + 1) = r.take (d + 1)

theorem backward_dup {us : List SolUnk} (n : Nat) : ∀ {M : List Row}, Rect us M → Backward us M →
    Rect us (dup M n) ∧ Backward us (dup M n) := by
  induction n with
  | zero => exact fun h1 h2 => ⟨h1, h2⟩
  | succ n ih =>
    intro M hr hb
    simp only [dup]
    apply ih
    · intro k r h
      rcases double_get.1 h with ⟨_, h⟩ | ⟨_, _, h⟩
      · exact hr k r h
      · exact hr _ r h
    · intro k r h d u hd hu
      have go : ∀ j, j ≤ k → M[j]? = some r → ∃ i r', i ≤ k ∧ (M ++ M.reverse)[i]? = some r' ∧
          r[d]? = some (.v u.name (i + 1)) ∧ r'.take (d + 1) = r.take (d + 1) := by
        intro j hj hM
        obtain ⟨i, r', h1, h2, h3, h4⟩ := hb j r hM d u hd hu
        exact ⟨i, r', by omega, double_get.2 (.inl ⟨(List.getElem?_eq_some_iff.1 h2).1, h2⟩), h3, h4⟩
      rcases double_get.1 h with ⟨_, h⟩ | ⟨h1, h2, h⟩
      · exact go k (Nat.le_refl _) h
      · exact go _ (by omega) h

theorem backward_fold : ∀ (us pre : List SolUnk) (M : List Row), pre ≠ [] → Rect pre M → Backward pre M →
    Rect (pre ++ us) (us.foldl colStep M) ∧ Backward (pre ++ us) (us.foldl colStep M)
  | [], pre, M, _, hr, hb => by simpa using ⟨hr, hb⟩
  | u :: us, pre, M, hne, hr, hb => by
    rw [show pre ++ u :: us = (pre ++ [u]) ++ us by simp, List.foldl_cons]
    obtain ⟨h1, h2⟩ := backward_dup (u.nsols - 1) hr hb
    apply backward_fold us (pre ++ [u]) _ (by simp)
    · intro k r h
      obtain ⟨r0, h0, rfl⟩ := mapIdx_get h
      simp [h1 k r0 h0]
    · intro k r h d v hd hv
      obtain ⟨r0, h0, rfl⟩ := mapIdx_get h
      have hlen := h1 k r0 h0
      by_cases hdl : d < pre.length
      · rw [List.getElem?_append_left hdl] at hv
        obtain ⟨i, r', e1, e2, e3, e4⟩ := h2 k r0 h0 d v hd hv
        refine ⟨i, _, e1, mapIdx_get' e2, ?_, ?_⟩
        · rw [List.getElem?_append_left (by omega)]; exact e3
        · have := h1 i r' e2
          rw [List.take_append_of_le_length (by omega), List.take_append_of_le_length (by omega)]; exact e4
      · have hdd : d = pre.length := by
          have := (List.getElem?_eq_some_iff.1 hv).1
          simp at this; omega
        subst hdd
        simp at hv; subst hv
        refine ⟨k, _, Nat.le_refl _, mapIdx_get' h0, ?_, rfl⟩
        rw [List.getElem?_append_right (by omega), hlen]; simp

/-- C18 as far as definition before use goes: in row `k`, the name put in place of the unknown of column `d ≥ 1` is the left
side of the equation of column `d` of some row `i ≤ k`, and row `i` uses the same names as row `k` for all columns up to
`d` (so that equation computes the value meant here).
Missing for the full C18: column 0 (violation 3 below), and the choice of the solution (violations 1 and 2 above). -/
theorem C18_defined_before_use_partial (u : SolUnk) (us : List SolUnk) (hin : TableInput u us)
    {F : List (List FEqn)} (h : makeLHSVersions (u :: us) (createSolutionSet (u :: us)) = .ok F)
    {k : Nat} {r : Row} (hk : (createSolutionSet (u :: us))[k]? = some r) {d : Nat} {v : SolUnk} (hd : 1 ≤ d)
    (hv : (u :: us)[d]? = some v) :
    ∃ i r' es e n, i ≤ k ∧ (createSolutionSet (u :: us))[i]? = some r' ∧ r'.take (d + 1) = r.take (d + 1) ∧
      F[i]? = some es ∧ es[d]? = some e ∧ r[d]? = some n ∧ e.lhs = n.render := by
  have hvn : u.versionNames ≠ [] := by
    rw [hin.2.1]; intro h
    have := congrArg List.length h
    simp [solNames] at this; have := hin.2.2; omega
  have hM := create_eq u us hin.1 hvn
  have h0 := first_once u
  rw [← hin.2.1] at h0
  have hb0 : Backward [u] (u.versionNames.map fun vn => [vn]) := by
    intro k r _ d v hd hv
    cases d with
    | zero => omega
    | succ d => simp at hv
  have hb := (backward_fold us [u] _ (by simp) h0.1 hb0).2
  rw [← hM] at hb
  obtain ⟨i, r', e1, e2, e3, e4⟩ := hb k r hk d v hd hv
  obtain ⟨l, hl⟩ : ∃ l, (u :: us).getLast? = some l := ⟨_, List.getLast?_eq_some_getLast (by simp)⟩
  obtain ⟨es, f1, _, f3⟩ := (C18_equations_exact hl h).2 i r' e2
  obtain ⟨sol, _, f5⟩ := f3 d v hv
  exact ⟨i, r', es, _, _, e1, e2, e4, f1, f5, e3, rfl⟩

theorem modn_used {n m : Nat} (h : n ≤ m) {j : Nat} (hj : j < n) : ∃ k, k < m ∧ k % n = j :=
  ⟨j, by omega, Nat.mod_eq_of_lt hj⟩

/-- C18, use of every solution, when all unknowns have the same number n of solutions and the table has at least n rows:
each solution of each unknown is the right side (up to the row's renaming) of some equation.
Missing: unknowns with different numbers of solutions (violations above). -/
theorem C18_all_solutions_used_partial {us : List SolUnk} {M : List Row} {F : List (List FEqn)} {n : Nat}
    (hn : ∀ u ∈ us, u.nsols = n) (hM : n ≤ M.length) (h : makeLHSVersions us M = .ok F)
    {c j : Nat} {u : SolUnk} {sol : Expr} (hu : us[c]? = some u) (hj : j < n) (hs : u.solutions[j]? = some sol) :
    ∃ (k : Nat) (r : Row) (es : List FEqn), M[k]? = some r ∧ F[k]? = some es ∧
      es[c]? = some ⟨(VName.v u.name (k + 1)).render, sol.subs (subdict us r)⟩ := by
  obtain ⟨l, hl⟩ : ∃ l, us.getLast? = some l := by
    cases us with
    | nil => simp at hu
    | cons a b => exact ⟨_, List.getLast?_eq_some_getLast (by simp)⟩
  have hln := hn l (List.mem_of_getLast? hl)
  obtain ⟨k, hk, hkj⟩ := modn_used hM hj
  obtain ⟨r, hr⟩ : ∃ r, M[k]? = some r := ⟨_, List.getElem?_eq_getElem hk⟩
  obtain ⟨es, e1, _, e3⟩ := (C18_equations_exact hl h).2 k r hr
  obtain ⟨sol', e4, e5⟩ := e3 c u hu
  rw [hln, hkj, hs] at e4; cases e4
  exact ⟨k, r, es, hr, e1, e5⟩

theorem ok_of_view {α : Type} {r : Except Err α} {a : α} (h : r.toOption = some a) : r = .ok a := by
  cases r with
  | error e => cases h
  | ok b => cases h; rfl

/-- x has two solutions `r`, `-r`; then y = x + 1, one solution. -/
def demoX : SolUnk := { name := "x", nsols := 2, solutions := [.sym "r", .un .neg (.sym "r")],
                        versionNames := [.s "x" 1, .s "x" 2] }
def demoY : SolUnk := { name := "y", nsols := 1, solutions := [.bin .add (.sym "x") (.num 1)], versionNames := [] }

/-- C18 is false of the code (3), with (1): for x = ±r, y = x + 1 the emitted equations are
`xv1 = r, yv1 = xs1 + 1; xv2 = r, yv2 = xs2 + 1` — the branch −r is lost, and `xs1`, `xs2` are never defined. -/
theorem C18_first_unknown_violation :
    makeLHSVersions [demoX, demoY] (createSolutionSet [demoX, demoY]) = .ok
      [[⟨"xv1", .sym "r"⟩, ⟨"yv1", .bin .add (.sym "xs1") (.num 1)⟩],
       [⟨"xv2", .sym "r"⟩, ⟨"yv2", .bin .add (.sym "xs2") (.num 1)⟩]] :=
  ok_of_view (by decide +kernel)

example : TableInput demoX [demoY] := ⟨by decide, rfl, by decide⟩

/-- Non-vacuity for equal numbers of solutions: x and z both have two. -/
def demoZ : SolUnk := { name := "z", nsols := 2, solutions := [.sym "x", .un .neg (.sym "x")], versionNames := [] }
example : ∃ F, makeLHSVersions [demoX, demoZ] (createSolutionSet [demoX, demoZ]) = .ok F ∧ F.length = 4 := by
  refine ⟨_, show makeLHSVersions [demoX, demoZ] (createSolutionSet [demoX, demoZ]) = .ok
      [[⟨"xv1", .sym "r"⟩, ⟨"zv1", .sym "xs1"⟩],
       [⟨"xv2", .un .neg (.sym "r")⟩, ⟨"zv2", .un .neg (.sym "xs2")⟩],
       [⟨"xv3", .sym "r"⟩, ⟨"zv3", .sym "xs2"⟩],
       [⟨"xv4", .un .neg (.sym "r")⟩, ⟨"zv4", .un .neg (.sym "xs1")⟩]] from ok_of_view (by decide +kernel), rfl⟩

end Verif.Sol
