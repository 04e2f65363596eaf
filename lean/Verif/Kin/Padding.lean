import Verif.Kin.Velocity
import Verif.Out.RobotProps
import Mathlib.LinearAlgebra.Matrix.DotProduct
/-!
# C75: the Jacobian shows the joints of the robot and no others

Robots with fewer than six joints are described with empty rows of the DH table (README.md:"If your robot is less than 6 DOF, create empty rows").
-/
namespace Verif.Kin
open Matrix Real

/-! ## Specification -/

/-- An empty row of the DH table: all entries are 0. -/
def Row.Empty (r : Row) : Prop := r.ca = 1 ∧ r.sa = 0 ∧ r.a = 0 ∧ r.d = 0 ∧ r.th = 0

/-- The column of the Jacobian that belongs to row j of the DH table, split in its linear and its angular half
(kin_cl.py:452-454 `J66`). -/
noncomputable def linearColumn (vv : Fin 6 → ℤ) (T : Fin 6 → M4) (j : Fin 6) : V3 := fun i => jacobian (v66 vv T) (w66 vv T) 0 (.inl i) j
noncomputable def angularColumn (vv : Fin 6 → ℤ) (T : Fin 6 → M4) (j : Fin 6) : V3 := fun i => jacobian (v66 vv T) (w66 vv T) 0 (.inr i) j

/-! ## Lemmas -/

theorem cross_zero (p : V3) : cross 0 p = 0 := by ext i; fin_cases i <;> simp [cross]

theorem mulVec_norm {R : M3} (h : IsRotation R) (x : V3) : (Rᵀ *ᵥ x) ⬝ᵥ (Rᵀ *ᵥ x) = x ⬝ᵥ x := by
  rw [Matrix.dotProduct_mulVec, Matrix.vecMul_transpose, Matrix.mulVec_mulVec, h.2.1, Matrix.one_mulVec]

theorem single_ne {j i : Fin 6} (h : i ≠ j) : (Pi.single j 1 : Fin 6 → ℝ) i = 0 := by simp [h]

theorem wStep_rest (vv : ℤ) (T : M4) (w : V3) : wStep vv 0 T w = (rot T)ᵀ *ᵥ w := by
  have : (![0, 0, 0] : V3) = 0 := by ext i; fin_cases i <;> rfl
  unfold wStep; rw [this]; simp
theorem vStep_rest (vv : ℤ) (T : M4) (w v : V3) : vStep vv 0 T w v = (rot T)ᵀ *ᵥ (v + cross w (pos T)) := by
  have : (![0, 0, 0] : V3) = 0 := by ext i; fin_cases i <;> rfl
  unfold vStep; rw [this]; simp

/-- After the moving joint: lengths are kept. -/
theorem after_joint {T : Fin 6 → M4} (hT : ∀ i, IsRigid (T i)) (vv : Fin 6 → ℤ) (j : Fin 6) :
    ∀ (l : List (Fin 6)) (w v : V3), j ∉ l →
      (velocities vv (Pi.single j 1) T l (w, v)).1 ⬝ᵥ (velocities vv (Pi.single j 1) T l (w, v)).1 = w ⬝ᵥ w ∧
      (w = 0 → (velocities vv (Pi.single j 1) T l (w, v)).1 = 0 ∧
        (velocities vv (Pi.single j 1) T l (w, v)).2 ⬝ᵥ (velocities vv (Pi.single j 1) T l (w, v)).2 = v ⬝ᵥ v)
  | [], w, v, _ => ⟨rfl, fun h => ⟨h, rfl⟩⟩
  | i :: l, w, v, h => by
    have hi : i ≠ j := fun e => h (by simp [e])
    obtain ⟨h1, h2⟩ := after_joint hT vv j l (wStep (vv i) ((Pi.single j 1 : Fin 6 → ℝ) i) (T i) w)
      (vStep (vv i) ((Pi.single j 1 : Fin 6 → ℝ) i) (T i) w v) (fun e => h (by simp [e]))
    rw [velocities]
    refine ⟨?_, fun hw => ?_⟩
    · rw [h1, single_ne hi, wStep_rest, mulVec_norm (hT i).1]
    · obtain ⟨h3, h4⟩ := h2 (by rw [single_ne hi, wStep_rest, hw, Matrix.mulVec_zero])
      refine ⟨h3, ?_⟩
      rw [h4, single_ne hi, vStep_rest, hw, cross_zero, add_zero, mulVec_norm (hT i).1]

/-- The velocities when only joint j moves. -/
theorem one_joint {T : Fin 6 → M4} (hT : ∀ i, IsRigid (T i)) (vv : Fin 6 → ℤ) (j : Fin 6) :
    ∀ (l : List (Fin 6)), l.Nodup → j ∈ l →
      let w := (velocities vv (Pi.single j 1) T l (0, 0)).1
      let v := (velocities vv (Pi.single j 1) T l (0, 0)).2
      (vv j = 1 → w ⬝ᵥ w = 1) ∧ (vv j = 0 → w = 0 ∧ v ⬝ᵥ v = 1) ∧ (vv j ≠ 1 → vv j ≠ 0 → w = 0 ∧ v = 0)
  | [], _, h => by cases h
  | i :: l, hn, hj => by
    intro w v
    have hz : (![0, 0, 1] : V3) ⬝ᵥ ![0, 0, 1] = 1 := by simp [dotProduct, Fin.sum_univ_three]
    by_cases hi : i = j
    · subst hi
      have hnot : i ∉ l := (List.nodup_cons.1 hn).1
      have e1 : wStep (vv i) ((Pi.single i 1 : Fin 6 → ℝ) i) (T i) 0 = if vv i = 1 then ![0, 0, 1] else 0 := by
        simp [wStep]
      have e2 : vStep (vv i) ((Pi.single i 1 : Fin 6 → ℝ) i) (T i) 0 0 = if vv i = 0 then ![0, 0, 1] else 0 := by
        simp [vStep, cross_zero]
      have ew : w = (velocities vv (Pi.single i 1) T l (if vv i = 1 then ![0, 0, 1] else 0, if vv i = 0 then ![0, 0, 1] else 0)).1 := by
        simp only [w]; rw [velocities, e1, e2]
      have ev : v = (velocities vv (Pi.single i 1) T l (if vv i = 1 then ![0, 0, 1] else 0, if vv i = 0 then ![0, 0, 1] else 0)).2 := by
        simp only [v]; rw [velocities, e1, e2]
      rw [ew, ev]
      obtain ⟨h1, h2⟩ := after_joint hT vv i l (if vv i = 1 then ![0, 0, 1] else 0) (if vv i = 0 then ![0, 0, 1] else 0) hnot
      refine ⟨fun h => ?_, fun h => ?_, fun h h' => ?_⟩
      · rw [h1, if_pos h, hz]
      · obtain ⟨h3, h4⟩ := h2 (by rw [if_neg (by rw [h]; decide)])
        exact ⟨h3, by rw [h4, if_pos h, hz]⟩
      · obtain ⟨h3, h4⟩ := h2 (by rw [if_neg h])
        refine ⟨h3, ?_⟩
        rw [if_neg h', dotProduct_zero] at h4
        exact dotProduct_self_eq_zero.1 (by rw [if_neg h']; exact h4)
    · have hj' : j ∈ l := by
        rcases List.mem_cons.1 hj with e | e
        · exact absurd e.symm hi
        · exact e
      have e1 : wStep (vv i) ((Pi.single j 1 : Fin 6 → ℝ) i) (T i) 0 = 0 := by rw [single_ne hi, wStep_rest, Matrix.mulVec_zero]
      have e2 : vStep (vv i) ((Pi.single j 1 : Fin 6 → ℝ) i) (T i) 0 0 = 0 := by
        rw [single_ne hi, vStep_rest, cross_zero, add_zero, Matrix.mulVec_zero]
      have ew : w = (velocities vv (Pi.single j 1) T l (0, 0)).1 := by simp only [w]; rw [velocities, e1, e2]
      have ev : v = (velocities vv (Pi.single j 1) T l (0, 0)).2 := by simp only [v]; rw [velocities, e1, e2]
      rw [ew, ev]
      exact one_joint hT vv j l (List.nodup_cons.1 hn).2 hj'

theorem columns (vv : Fin 6 → ℤ) (T : Fin 6 → M4) (j : Fin 6) :
    linearColumn vv T j = v66 vv T (Pi.single j 1) ∧ angularColumn vv T j = w66 vv T (Pi.single j 1) := by
  obtain ⟨hw, hv⟩ := velocities_linear vv T (List.finRange 6) (fun _ => 0) (fun _ => 0)
    ⟨by simp, by simp⟩ ⟨by simp, by simp⟩
  have hv' : IsLinearMap ℝ (v66 vv T) := hv
  have hw' : IsLinearMap ℝ (w66 vv T) := hw
  constructor
  · ext i; simp only [linearColumn, jacobian, deriv_linear hv']
  · ext i; simp only [angularColumn, jacobian, deriv_linear hw']

/-! ## C75 -/

/-- **C75, the columns of the joints (partial).** For every DH table, all joint types and every motion in which only joint j moves, at unit rate: the
last frame moves with the velocities in column j of the Jacobian. Missing: that the rows without a joint have no column, or a zero one (violated). -/
theorem C75_joint_column_partial {rows : ℝ → Fin 6 → Row} {vv : Fin 6 → ℤ} {j : Fin 6} {t : ℝ} (h : Moving rows vv (Pi.single j 1) t) :
    MovesWith (fun s => t06 (links (rows s))) t (angularColumn vv (links (rows t)) j) (linearColumn vv (links (rows t)) j) := by
  rw [(columns vv _ j).1, (columns vv _ j).2]
  exact C30_velocity_recursion h

/-- **C75, empty rows.** Empty rows, wherever they are, do not change the pose: T_06 is the product of the links of the other rows, in order. -/
theorem C75_empty_rows (rows : Fin 6 → Row) (empty : Fin 6 → Bool) (h : ∀ i, empty i = true → (rows i).Empty) :
    t06 (links rows) = (((List.finRange 6).filter fun i => !empty i).map (links rows)).prod := by
  have one : ∀ i, empty i = true → links rows i = 1 := by
    intro i hi
    obtain ⟨h1, h2, h3, h4, h5⟩ := h i hi
    have : links rows i = link 0 0 0 0 := by simp only [links, Row.link, link, h1, h2, h3, h4, h5, Real.cos_zero, Real.sin_zero]
    rw [this, C26_link_zero]
  have key : ∀ l : List (Fin 6), (l.map (links rows)).prod = ((l.filter fun i => !empty i).map (links rows)).prod := by
    intro l
    induction l with
    | nil => rfl
    | cons i l ih =>
      cases hi : empty i with
      | true => rw [List.filter_cons_of_neg (by simp [hi]), List.map_cons, List.prod_cons, one i hi, Matrix.one_mul, ih]
      | false => rw [List.filter_cons_of_pos (by simp [hi]), List.map_cons, List.prod_cons, List.map_cons, List.prod_cons, ih]
  rw [← key]
  simp [t06, List.finRange_succ, List.finRange_zero, Matrix.mul_assoc]

/-- **C75, what a column looks like.** Whatever the DH table is, and whether or not there is a joint in row j: if its type is 1, the angular half of the
column is a unit vector; if it is 0, the angular half is zero and the linear half is a unit vector; only for another type the column is zero. -/
theorem C75_column_lengths (rows : Fin 6 → Row) (hg : GoodRows rows) (vv : Fin 6 → ℤ) (j : Fin 6) :
    let w := angularColumn vv (links rows) j
    let v := linearColumn vv (links rows) j
    (vv j = 1 → w 0 ^ 2 + w 1 ^ 2 + w 2 ^ 2 = 1) ∧ (vv j = 0 → w = 0 ∧ v 0 ^ 2 + v 1 ^ 2 + v 2 ^ 2 = 1) ∧
    (vv j ≠ 1 → vv j ≠ 0 → w = 0 ∧ v = 0) := by
  intro w v
  have e : ∀ x : V3, x ⬝ᵥ x = x 0 ^ 2 + x 1 ^ 2 + x 2 ^ 2 := by
    intro x; rw [dotProduct, Fin.sum_univ_three]; ring
  have h := one_joint (links_rigid hg) vv j (List.finRange 6) (List.nodup_finRange 6) (List.mem_finRange j)
  have hw : w = w66 vv (links rows) (Pi.single j 1) := (columns vv _ j).2
  have hv : v = v66 vv (links rows) (Pi.single j 1) := (columns vv _ j).1
  rw [hw, hv, ← e, ← e]
  exact h

open Verif.Out in
/-- **C75 violated.** For every robot of the table with fewer than six joints (except MiniDD, for which the computation raises, C49) and all values of the
joint variables and parameters: every row of the DH table after those of the joint variables contains no variable but has a column in the Jacobian that is not zero — a velocity
for a joint that the robot does not have. -/
theorem C75_phantom_joints_violation (name : String) (d : Desc) (h : robotParams offered blocks name = .ok d) (hn : name ≠ "MiniDD")
    (j : Fin 6) (hj : d.vars.length ≤ j.val) (rows : Fin 6 → Row) (hg : GoodRows rows) :
    (∀ v ∈ d.vars, v.1 ∉ (d.dh.getD j []).filterMap Cell.name?) ∧
    ∃ l, readsVv d.vv = .ok l ∧ ∃ i, jacobian (v66 (fun k => ((l.getD k 2 : ℕ) : ℤ)) (links rows)) (w66 (fun k => ((l.getD k 2 : ℕ) : ℤ)) (links rows)) 0 i j ≠ 0 := by
  have key : ∀ name ∈ offered, name ≠ "MiniDD" → ∀ d ∈ isOk (robotParams offered blocks name),
      (∀ j : Fin 6, d.vars.length ≤ j.val → ∀ v ∈ d.vars, v.1 ∉ (d.dh.getD j []).filterMap Cell.name?) ∧ ∃ l ∈ (readsVv d.vv).toOption,
      ∀ j : Fin 6, l.getD j 2 = 0 ∨ l.getD j 2 = 1 := by decide +kernel
  have hm : name ∈ offered := Decidable.byContradiction fun hm => by rw [robotParams_mem hm] at h; cases h
  obtain ⟨hvar, l, hl, hl2⟩ := key name hm hn d (by simp [h, isOk])
  refine ⟨hvar j hj, l, ?_, ?_⟩
  · cases hv : readsVv d.vv with
    | ok l' => rw [hv] at hl; simp [Except.toOption] at hl; rw [hl]
    | error e => rw [hv] at hl; simp [Except.toOption] at hl
  · obtain ⟨h1, h0, -⟩ := C75_column_lengths rows hg (fun k => ((l.getD k 2 : ℕ) : ℤ)) j
    apply Classical.byContradiction
    intro hno
    have zero : ∀ i, jacobian (v66 (fun k => ((l.getD k 2 : ℕ) : ℤ)) (links rows)) (w66 (fun k => ((l.getD k 2 : ℕ) : ℤ)) (links rows)) 0 i j = 0 := by
      intro i
      apply Classical.byContradiction
      intro hi
      exact hno ⟨i, hi⟩
    rcases hl2 j with e | e
    · have := (h0 (by simp only [e]; rfl)).2
      simp only [linearColumn, zero] at this
      norm_num at this
    · have := h1 (by simp only [e]; rfl)
      simp only [angularColumn, zero] at this
      norm_num at this

open Verif.Out in
/-- Such robots: the Wrist has three joints; rows 3, 4 and 5 of its table contain no variable. -/
example : ∃ d ∈ isOk (robotParams offered blocks "Wrist"), d.vars.length = 3 ∧ (d.dh.drop 3).flatten.filterMap Cell.name? = [] := by
  decide +kernel

/-- Non-vacuity of C75_empty_rows: a table with three joints and three empty rows. -/
example : ∀ i : Fin 6, decide (3 ≤ i.val) = true → ((fun i : Fin 6 => if i.val < 3 then (⟨1, 0, 2, 0, i⟩ : Row) else ⟨1, 0, 0, 0, 0⟩) i).Empty := by
  intro i hi
  have : ¬ i.val < 3 := by have := of_decide_eq_true hi; omega
  simp [this, Row.Empty]

/-- Non-vacuity of C75_joint_column_partial: the second joint of the same arm turns. -/
example : Moving (fun s i => if i.val < 3 then (⟨1, 0, 2, 0, if i = 1 then s else 5⟩ : Row) else ⟨1, 0, 0, 0, 0⟩) (fun _ => 1) (Pi.single 1 1) 7 where
  good s i := by by_cases h : i.val < 3 <;> simp [h]
  const s i := by by_cases h : i.val < 3 <;> simp [h]
  th i := by
    by_cases h : i = 1
    · subst h; simpa using hasDerivAt_id' (7 : ℝ)
    · by_cases h3 : i.val < 3
      · simpa [h, h3] using hasDerivAt_const (7 : ℝ) (5 : ℝ)
      · simpa [h, h3] using hasDerivAt_const (7 : ℝ) (0 : ℝ)
  d i := by
    have e : (fun s : ℝ => (if i.val < 3 then (⟨1, 0, 2, 0, if i = 1 then s else 5⟩ : Row) else ⟨1, 0, 0, 0, 0⟩).d) = fun _ => 0 := by
      ext s; split <;> rfl
    simpa [e] using hasDerivAt_const (7 : ℝ) (0 : ℝ)

end Verif.Kin
