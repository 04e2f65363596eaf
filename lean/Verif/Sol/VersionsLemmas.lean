import Verif.Sol.Versions
namespace Verif.Sol
open Verif.Sym

theorem dup_nil {α : Type} (n : Nat) : dup ([] : List α) n = [] := by
  induction n with
  | zero => rfl
  | succ n ih => simpa [dup] using ih

theorem length_dup {α : Type} (M : List α) (n : Nat) : (dup M n).length = 2 ^ n * M.length := by
  induction n generalizing M with
  | zero => simp [dup]
  | succ n ih =>
    rw [dup, ih, List.length_append, List.length_reverse, Nat.pow_succ, Nat.mul_assoc, Nat.two_mul]

/-- One column added, written without the loop. -/
def colStep (M : List Row) (u : SolUnk) : List Row :=
  (dup M (u.nsols - 1)).mapIdx fun i r => r ++ [.v u.name (i + 1)]

theorem range_get (u : String) (i : Nat) :
    (((List.range i).map (fun j => VName.v u (j + 1)) ++ [VName.v u (i + 1)]))[i]? = some (.v u (i + 1)) := by
  rw [List.getElem?_append_right (by simp)]; simp

theorem addCol_fst (u : String) : ∀ (rs : List Row) (i : Nat),
    (addCol u i ((List.range i).map fun j => .v u (j + 1)) rs).1
      = rs.mapIdx fun j r => r ++ [.v u (i + j + 1)]
  | [], i => by simp [addCol]
  | r :: rs, i => by
    simp only [addCol, List.mapIdx_cons]
    have h := addCol_fst u rs (i + 1)
    rw [List.range_succ, List.map_append] at h
    simp only [List.map_cons, List.map_nil] at h
    rw [range_get u i, h]
    simp only [Option.getD_some, Nat.add_zero, List.cons.injEq, true_and]
    congr 1
    funext j r
    rw [show i + (j + 1) + 1 = i + 1 + j + 1 by omega]

theorem length_colStep (M : List Row) (u : SolUnk) : (colStep M u).length = 2 ^ (u.nsols - 1) * M.length := by
  simp [colStep, length_dup]

theorem dup_ite (M : List Row) (u : SolUnk) :
    (if u.nsols > 1 then dup M (u.nsols - 1) else M) = dup M (u.nsols - 1) := by
  split
  · rfl
  · rw [show u.nsols - 1 = 0 by omega]; rfl

theorem createStep_eq (M : List Row) (hM : 0 < M.length) (lhs : LhsMap) (u : SolUnk) (hu : lhs u.name = []) :
    (createStep (M, lhs) u).1 = colStep M u ∧ ∀ n, n ≠ u.name → (createStep (M, lhs) u).2 n = lhs n := by
  unfold createStep
  simp only [dup_ite]
  rw [if_pos (by exact hM)]
  have h := addCol_fst u.name (dup M (u.nsols - 1)) 0
  simp only [List.range_zero, List.map_nil, Nat.zero_add] at h
  rw [hu]
  exact ⟨h, fun n hn => by simp [hn]⟩

theorem fold_eq : ∀ (us : List SolUnk) (M : List Row) (lhs : LhsMap), 0 < M.length →
    (us.map (·.name)).Nodup → (∀ u ∈ us, lhs u.name = []) →
    (us.foldl createStep (M, lhs)).1 = us.foldl colStep M
  | [], M, lhs, _, _, _ => rfl
  | u :: us, M, lhs, hM, hnd, hl => by
    simp only [List.foldl_cons]
    obtain ⟨h1, h2⟩ := createStep_eq M hM lhs u (hl u (by simp))
    simp only [List.map_cons, List.nodup_cons] at hnd
    have hM' : 0 < (createStep (M, lhs) u).1.length := by
      rw [h1, length_colStep]; exact Nat.mul_pos (Nat.pow_pos (by decide)) hM
    have := fold_eq us (createStep (M, lhs) u).1 (createStep (M, lhs) u).2 hM' hnd.2 (by
      intro u' hu'
      rw [h2]
      · exact hl u' (by simp [hu'])
      · intro h; exact hnd.1 (List.mem_map.2 ⟨u', hu', h⟩))
    rw [← h1]; exact this

theorem create_eq (u : SolUnk) (us : List SolUnk) (hnd : ((u :: us).map (·.name)).Nodup)
    (hv : u.versionNames ≠ []) :
    createSolutionSet (u :: us) = us.foldl colStep (u.versionNames.map fun vn => [vn]) := by
  unfold createSolutionSet
  simp only [List.foldl_cons]
  have h0 : createStep ([], fun _ => []) u = (u.versionNames.map (fun vn => [vn]), fun _ => []) := by
    simp [createStep, dup_nil]
  rw [h0]
  simp only [List.map_cons, List.nodup_cons] at hnd
  exact fold_eq us _ _ (by simp; exact List.length_pos_iff.2 hv) hnd.2 (by simp)

/-! Rows: every column names its unknown (for any table, even one with a repeated unknown). -/

/-- Row `r` has one entry per unknown of `us`, in order. -/
def Labelled (us : List SolUnk) (r : Row) : Prop := r.map (·.unk) = us.map (·.name)

theorem addCol_labelled (u : SolUnk) (us : List SolUnk) : ∀ (rs : List Row) (i : Nat) (lhs : List VName),
    (∀ e ∈ lhs, e.unk = u.name) → (∀ r ∈ rs, Labelled us r) →
    (∀ r ∈ (addCol u.name i lhs rs).1, Labelled (us ++ [u]) r) ∧
    (∀ e ∈ (addCol u.name i lhs rs).2, e.unk = u.name)
  | [], i, lhs, hl, _ => by simp [addCol]; exact hl
  | r :: rs, i, lhs, hl, hr => by
    have hl' : ∀ e ∈ lhs ++ [VName.v u.name (i + 1)], e.unk = u.name := by
      intro e he
      rcases List.mem_append.1 he with he | he
      · exact hl e he
      · simp at he; rw [he]; rfl
    obtain ⟨h1, h2⟩ := addCol_labelled u us rs (i + 1) _ hl' fun r' h' => hr r' (by simp [h'])
    simp only [addCol]
    refine ⟨?_, h2⟩
    intro r' hr'
    rcases List.mem_cons.1 hr' with hr' | hr'
    · rw [hr']
      simp only [Labelled, List.map_append, List.map_cons, List.map_nil]
      rw [hr r (by simp)]
      congr 1
      simp only [List.cons.injEq, and_true]
      cases hg : (lhs ++ [VName.v u.name (i + 1)])[i]? with
      | none => rfl
      | some e => exact hl' e (List.mem_of_getElem? hg)
    · exact h1 r' hr'

theorem dup_labelled (us : List SolUnk) (n : Nat) : ∀ M : List Row, (∀ r ∈ M, Labelled us r) →
    ∀ r ∈ dup M n, Labelled us r := by
  induction n with
  | zero => exact fun M h => h
  | succ n ih =>
    intro M h
    apply ih
    intro r hr
    rcases List.mem_append.1 hr with hr | hr
    · exact h r hr
    · exact h r (List.mem_reverse.1 hr)

theorem fold_labelled : ∀ (us pre : List SolUnk) (M : List Row) (lhs : LhsMap),
    (∀ r ∈ M, Labelled pre r) → (M = [] → pre = []) → (∀ n, ∀ e ∈ lhs n, e.unk = n) →
    (∀ u ∈ us, ∀ e ∈ u.versionNames, e.unk = u.name) → (∀ u ∈ us, u.versionNames ≠ []) →
    ∀ r ∈ (us.foldl createStep (M, lhs)).1, Labelled (pre ++ us) r
  | [], pre, M, lhs, h, _, _, _, _ => by simpa using h
  | u :: us, pre, M, lhs, h, hne, hl, hv, hvn => by
    simp only [List.foldl_cons]
    rw [show pre ++ u :: us = (pre ++ [u]) ++ us by simp]
    have key : (∀ r ∈ (createStep (M, lhs) u).1, Labelled (pre ++ [u]) r) ∧
        ((createStep (M, lhs) u).1 ≠ []) ∧ (∀ n, ∀ e ∈ (createStep (M, lhs) u).2 n, e.unk = n) := by
      unfold createStep
      simp only [dup_ite]
      split
      · rename_i hM
        have hd := dup_labelled pre (u.nsols - 1) M h
        obtain ⟨h1, h2⟩ := addCol_labelled u pre (dup M (u.nsols - 1)) 0 (lhs u.name) (hl u.name) hd
        refine ⟨h1, ?_, ?_⟩
        · have hlen : (dup M (u.nsols - 1)).length ≠ 0 := by
            rw [length_dup]
            exact Nat.ne_of_gt (Nat.mul_pos (Nat.pow_pos (by decide)) hM)
          cases hx : dup M (u.nsols - 1) with
          | nil => rw [hx] at hlen; simp at hlen
          | cons a l => simp [addCol]
        · intro n e he
          simp only at he
          split at he
          · rename_i hn; rw [hn]; exact h2 e he
          · exact hl n e he
      · rename_i hM
        have hM0 : M = [] := by cases M with
          | nil => rfl
          | cons a l => simp at hM
        subst hM0
        rw [hne rfl, dup_nil]
        refine ⟨?_, ?_, hl⟩
        · intro r hr
          simp only [List.nil_append, List.mem_map] at hr
          obtain ⟨e, he, rfl⟩ := hr
          simp [Labelled, hv u (by simp) e he]
        · simp only [List.nil_append, ne_eq, List.map_eq_nil_iff]; exact hvn u (by simp)
    obtain ⟨k1, k2, k3⟩ := key
    exact fold_labelled us (pre ++ [u]) _ _ k1 (fun h => absurd h k2) k3
      (fun u' hu' => hv u' (by simp [hu'])) (fun u' hu' => hvn u' (by simp [hu']))

end Verif.Sol
