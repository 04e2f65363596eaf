import Verif.Kin.Model
import Mathlib.Analysis.SpecialFunctions.Complex.Arg
import Mathlib.Tactic.FinCases
import Mathlib.Tactic.LinearCombination
import Mathlib.Tactic.Linarith
/-!
# C26-C29, C31, C32: rigid transforms, matrix equations, rotations
-/
namespace Verif.Kin
open Matrix Real

/-! ## Specification -/

/-- A 3×3 rotation: orthonormal with determinant one. -/
def IsRotation (R : M3) : Prop := Rᵀ * R = 1 ∧ R * Rᵀ = 1 ∧ R.det = 1

/-- The last row is 0 0 0 1. -/
def LastRow (T : M4) : Prop := T 3 0 = 0 ∧ T 3 1 = 0 ∧ T 3 2 = 0 ∧ T 3 3 = 1

/-- A homogeneous rigid transform: the upper left block is a rotation and the last row is 0 0 0 1. -/
def IsRigid (T : M4) : Prop := IsRotation (rot T) ∧ LastRow T

/-! ## Block form -/

@[simp] theorem rot_mk4 (R : M3) (P : V3) : rot (mk4 R P) = R := by
  ext i j; fin_cases i <;> fin_cases j <;> rfl
@[simp] theorem pos_mk4 (R : M3) (P : V3) : pos (mk4 R P) = P := by
  ext i; fin_cases i <;> rfl
theorem mk4_last (R : M3) (P : V3) : LastRow (mk4 R P) := ⟨rfl, rfl, rfl, rfl⟩

theorem eq_mk4 {T : M4} (h : LastRow T) : T = mk4 (rot T) (pos T) := by
  ext i j
  fin_cases i
  · fin_cases j <;> rfl
  · fin_cases j <;> rfl
  · fin_cases j <;> rfl
  · obtain ⟨h0, h1, h2, h3⟩ := h
    fin_cases j
    · exact h0
    · exact h1
    · exact h2
    · exact h3

theorem mk4_mul (R R' : M3) (P P' : V3) : mk4 R P * mk4 R' P' = mk4 (R * R') (R *ᵥ P' + P) := by
  ext i j
  fin_cases i <;> fin_cases j <;>
    simp [mk4, Matrix.mul_apply, Fin.sum_univ_succ, Matrix.mulVec, dotProduct] <;> ring

theorem mk4_one : mk4 1 0 = 1 := by
  ext i j; fin_cases i <;> fin_cases j <;> simp [mk4]

theorem rot_one_mul {R R' : M3} (h : IsRotation R) (h' : IsRotation R') : IsRotation (R * R') := by
  obtain ⟨a, b, c⟩ := h
  obtain ⟨a', b', c'⟩ := h'
  refine ⟨?_, ?_, by rw [det_mul, c, c', one_mul]⟩
  · rw [transpose_mul, Matrix.mul_assoc, ← Matrix.mul_assoc Rᵀ, a, Matrix.one_mul, a']
  · rw [transpose_mul, Matrix.mul_assoc, ← Matrix.mul_assoc R', b', Matrix.one_mul, b]

theorem rot_transpose {R : M3} (h : IsRotation R) : IsRotation Rᵀ :=
  ⟨by rw [transpose_transpose]; exact h.2.1, by rw [transpose_transpose]; exact h.1, by rw [det_transpose]; exact h.2.2⟩

theorem rigid_mk4 {R : M3} (P : V3) (h : IsRotation R) : IsRigid (mk4 R P) := ⟨by rw [rot_mk4]; exact h, mk4_last R P⟩

theorem rigid_mul {T T' : M4} (h : IsRigid T) (h' : IsRigid T') : IsRigid (T * T') := by
  rw [eq_mk4 h.2, eq_mk4 h'.2, mk4_mul]
  exact rigid_mk4 _ (rot_one_mul h.1 h'.1)

theorem rigid_one : IsRigid (1 : M4) := by
  rw [← mk4_one]; exact rigid_mk4 0 ⟨by simp, by simp, by simp⟩

/-! ## C31: rotations -/

theorem isRotation_rotX (t : ℝ) : IsRotation (rotX t) := by
  have h := Real.sin_sq_add_cos_sq t
  refine ⟨?_, ?_, ?_⟩
  · ext i j; fin_cases i <;> fin_cases j <;>
      simp [rotX, Matrix.mul_apply, Fin.sum_univ_succ] <;> first | ring1 | linear_combination h
  · ext i j; fin_cases i <;> fin_cases j <;>
      simp [rotX, Matrix.mul_apply, Fin.sum_univ_succ] <;> first | ring1 | linear_combination h
  · simp [rotX, det_fin_three]; linear_combination h

theorem isRotation_rotY (t : ℝ) : IsRotation (rotY t) := by
  have h := Real.sin_sq_add_cos_sq t
  refine ⟨?_, ?_, ?_⟩
  · ext i j; fin_cases i <;> fin_cases j <;>
      simp [rotY, Matrix.mul_apply, Fin.sum_univ_succ] <;> first | ring1 | linear_combination h
  · ext i j; fin_cases i <;> fin_cases j <;>
      simp [rotY, Matrix.mul_apply, Fin.sum_univ_succ] <;> first | ring1 | linear_combination h
  · simp [rotY, det_fin_three]; linear_combination h

theorem isRotation_rotZ (t : ℝ) : IsRotation (rotZ t) := by
  have h := Real.sin_sq_add_cos_sq t
  refine ⟨?_, ?_, ?_⟩
  · ext i j; fin_cases i <;> fin_cases j <;>
      simp [rotZ, Matrix.mul_apply, Fin.sum_univ_succ] <;> first | ring1 | linear_combination h
  · ext i j; fin_cases i <;> fin_cases j <;>
      simp [rotZ, Matrix.mul_apply, Fin.sum_univ_succ] <;> first | ring1 | linear_combination h
  · simp [rotZ, det_fin_three]; linear_combination h

theorem rotX4_eq (t : ℝ) : rotX4 t = mk4 (rotX t) 0 := by
  ext i j; fin_cases i <;> fin_cases j <;> simp [rotX4, mk4, rotX]
theorem rotY4_eq (t : ℝ) : rotY4 t = mk4 (rotY t) 0 := by
  ext i j; fin_cases i <;> fin_cases j <;> simp [rotY4, mk4, rotY]
theorem rotZ4_eq (t : ℝ) : rotZ4 t = mk4 (rotZ t) 0 := by
  ext i j; fin_cases i <;> fin_cases j <;> simp [rotZ4, mk4, rotZ]
theorem trans4_eq (v : V3) : trans4 v = mk4 1 v := by
  ext i j; fin_cases i <;> fin_cases j <;> simp [trans4, mk4]

/-- C31: the canonical matrices are rotations (as 4×4: rigid). -/
theorem C31_rotations (t : ℝ) : IsRotation (rotX t) ∧ IsRotation (rotY t) ∧ IsRotation (rotZ t) ∧
    IsRigid (rotX4 t) ∧ IsRigid (rotY4 t) ∧ IsRigid (rotZ4 t) := by
  refine ⟨isRotation_rotX t, isRotation_rotY t, isRotation_rotZ t, ?_, ?_, ?_⟩
  · rw [rotX4_eq]; exact rigid_mk4 _ (isRotation_rotX t)
  · rw [rotY4_eq]; exact rigid_mk4 _ (isRotation_rotY t)
  · rw [rotZ4_eq]; exact rigid_mk4 _ (isRotation_rotZ t)

theorem rotX_add (s t : ℝ) : rotX s * rotX t = rotX (s + t) := by
  ext i j; fin_cases i <;> fin_cases j <;>
    simp [rotX, Matrix.mul_apply, Fin.sum_univ_succ, Real.cos_add, Real.sin_add] <;> ring
theorem rotY_add (s t : ℝ) : rotY s * rotY t = rotY (s + t) := by
  ext i j; fin_cases i <;> fin_cases j <;>
    simp [rotY, Matrix.mul_apply, Fin.sum_univ_succ, Real.cos_add, Real.sin_add] <;> ring
theorem rotZ_add (s t : ℝ) : rotZ s * rotZ t = rotZ (s + t) := by
  ext i j; fin_cases i <;> fin_cases j <;>
    simp [rotZ, Matrix.mul_apply, Fin.sum_univ_succ, Real.cos_add, Real.sin_add] <;> ring

/-- C31: rotations about one axis compose by adding the angles. -/
theorem C31_additive (s t : ℝ) : rotX s * rotX t = rotX (s + t) ∧ rotY s * rotY t = rotY (s + t) ∧
    rotZ s * rotZ t = rotZ (s + t) ∧ rotX4 s * rotX4 t = rotX4 (s + t) ∧ rotY4 s * rotY4 t = rotY4 (s + t) ∧
    rotZ4 s * rotZ4 t = rotZ4 (s + t) := by
  refine ⟨rotX_add s t, rotY_add s t, rotZ_add s t, ?_, ?_, ?_⟩
  · rw [rotX4_eq, rotX4_eq, rotX4_eq, mk4_mul, rotX_add]; simp
  · rw [rotY4_eq, rotY4_eq, rotY4_eq, mk4_mul, rotY_add]; simp
  · rw [rotZ4_eq, rotZ4_eq, rotZ4_eq, mk4_mul, rotZ_add]; simp

/-- C31: each rotation fixes its axis and turns the next axis towards the third by the angle (right-handed). -/
theorem C31_axes (t : ℝ) :
    rotX t *ᵥ ![1, 0, 0] = ![1, 0, 0] ∧ rotX t *ᵥ ![0, 1, 0] = ![0, cos t, sin t] ∧
    rotY t *ᵥ ![0, 1, 0] = ![0, 1, 0] ∧ rotY t *ᵥ ![0, 0, 1] = ![sin t, 0, cos t] ∧
    rotZ t *ᵥ ![0, 0, 1] = ![0, 0, 1] ∧ rotZ t *ᵥ ![1, 0, 0] = ![cos t, sin t, 0] := by
  refine ⟨?_, ?_, ?_, ?_, ?_, ?_⟩ <;>
    (ext i; fin_cases i <;> simp [rotX, rotY, rotZ, Matrix.mulVec, dotProduct, Fin.sum_univ_succ])

/-- C31: roll-pitch-yaw: first roll about X, then pitch about Y, then yaw about Z, all about the fixed axes; a vector is turned by the
three in that order. The 4×4 version is the same rotation without translation. Both are rigid. -/
theorem C31_rpy (r p y : ℝ) :
    (∀ v : V3, rpy3 r p y *ᵥ v = rotZ y *ᵥ (rotY p *ᵥ (rotX r *ᵥ v))) ∧ rpy4 r p y = rotZ4 y * rotY4 p * rotX4 r ∧
    IsRotation (rpy3 r p y) ∧ IsRigid (rpy4 r p y) := by
  have h4 : rpy4 r p y = mk4 (rpy3 r p y) 0 := by
    ext i j; fin_cases i <;> fin_cases j <;> simp [rpy4, mk4]
  have hr : IsRotation (rpy3 r p y) :=
    rot_one_mul (rot_one_mul (isRotation_rotZ y) (isRotation_rotY p)) (isRotation_rotX r)
  refine ⟨fun v => ?_, ?_, hr, ?_⟩
  · rw [rpy3, ← Matrix.mulVec_mulVec, ← Matrix.mulVec_mulVec]
  · rw [h4, rotZ4_eq, rotY4_eq, rotX4_eq, mk4_mul, mk4_mul]; simp [rpy3]
  · rw [h4]; exact rigid_mk4 _ hr

/-- C31: translations compose by adding, are rigid, and move the origin to v. -/
theorem C31_trans (u v : V3) : trans4 u * trans4 v = trans4 (u + v) ∧ IsRigid (trans4 v) ∧ pos (trans4 v) = v := by
  refine ⟨?_, ?_, ?_⟩
  · rw [trans4_eq, trans4_eq, trans4_eq, mk4_mul]; simp [add_comm]
  · rw [trans4_eq]; exact rigid_mk4 _ ⟨by simp, by simp, by simp⟩
  · rw [trans4_eq, pos_mk4]

/-! ## C26: link transforms -/

/-- C26, form: the link matrix is RotX(α)·TransX(a)·TransZ(d)·RotZ(θ) (modified DH). -/
theorem C26_link_factors (al a d th : ℝ) :
    link al a d th = rotX4 al * trans4 ![a, 0, 0] * trans4 ![0, 0, d] * rotZ4 th := by
  rw [rotX4_eq, trans4_eq, trans4_eq, rotZ4_eq, mk4_mul, mk4_mul, mk4_mul]
  ext i j
  fin_cases i <;> fin_cases j <;>
    simp [link, linkCS, mk4, rotX, rotZ, Matrix.mul_apply, Fin.sum_univ_succ] <;> ring

/-- C26: the link matrix is a rigid transform. -/
theorem C26_link_rigid (al a d th : ℝ) : IsRigid (link al a d th) := by
  rw [C26_link_factors]
  obtain ⟨_, _, _, hx, _, _⟩ := C31_rotations al
  obtain ⟨_, _, _, _, _, hz⟩ := C31_rotations th
  exact rigid_mul (rigid_mul (rigid_mul hx (C31_trans 0 _).2.1) (C31_trans 0 _).2.1) hz

/-- The link matrix with constants `ca`, `sa` for cos α, sin α is rigid as long as ca² + sa² = 1. -/
theorem C26_linkCS_rigid {ca sa : ℝ} (h : ca ^ 2 + sa ^ 2 = 1) (a d th : ℝ) : IsRigid (linkCS ca sa a d th) := by
  obtain ⟨al, rfl, rfl⟩ : ∃ al, ca = cos al ∧ sa = sin al := by
    obtain ⟨z, hz⟩ : ∃ z : ℂ, z = ⟨ca, sa⟩ := ⟨_, rfl⟩
    have hn : ‖z‖ = 1 := by
      rw [hz, Complex.norm_def, Complex.normSq_mk, show ca * ca + sa * sa = 1 by linarith [h, sq ca, sq sa], Real.sqrt_one]
    have hz0 : z ≠ 0 := by intro h0; rw [h0] at hn; simp at hn
    refine ⟨z.arg, ?_, ?_⟩
    · rw [Complex.cos_arg hz0, hn, div_one, hz]
    · rw [Complex.sin_arg, hn, div_one, hz]
  exact C26_link_rigid al a d th

/-- A link with all parameters zero (the unused rows of a robot with fewer joints) is the identity. -/
theorem C26_link_zero : link 0 0 0 0 = 1 := by
  ext i j; fin_cases i <;> fin_cases j <;> simp [link, linkCS]

/-! ## C27: the inverse -/

/-- C27: for a rigid T, `H_inv_S(T)` is its two-sided inverse, and again rigid. -/
theorem C27_inverse {T : M4} (h : IsRigid T) : hInv T * T = 1 ∧ T * hInv T = 1 ∧ IsRigid (hInv T) := by
  have e : hInv T = mk4 (rot T)ᵀ ((-(rot T)ᵀ) *ᵥ pos T) := rfl
  refine ⟨?_, ?_, ?_⟩
  · rw [e]; conv_lhs => rw [eq_mk4 h.2]
    rw [rot_mk4, pos_mk4, mk4_mul, h.1.1, ← mk4_one]
    congr 1
    rw [Matrix.neg_mulVec, add_neg_cancel]
  · rw [e]; conv_lhs => rw [eq_mk4 h.2]
    rw [rot_mk4, pos_mk4, mk4_mul, h.1.2.1, ← mk4_one]
    congr 1
    rw [Matrix.mulVec_mulVec, Matrix.mul_neg, h.1.2.1, Matrix.neg_mulVec, Matrix.one_mulVec, neg_add_cancel]
  · rw [e]; exact rigid_mk4 _ (rot_transpose h.1)

example : IsRigid (link 1 2 3 4) := C26_link_rigid 1 2 3 4

/-- C27: the symbolic inverse undoes any number of link transforms. -/
theorem C27_inverse_cancels {T A B : M4} (h : IsRigid T) : hInv T * A = B ↔ A = T * B := by
  obtain ⟨h1, h2, _⟩ := C27_inverse h
  constructor
  · rintro rfl; rw [← Matrix.mul_assoc, h2, Matrix.one_mul]
  · rintro rfl; rw [← Matrix.mul_assoc, h1, Matrix.one_mul]

theorem inverse_cancels_right {T A B : M4} (h : IsRigid T) : A * hInv T = B ↔ A = B * T := by
  obtain ⟨h1, h2, _⟩ := C27_inverse h
  constructor
  · rintro rfl; rw [Matrix.mul_assoc, h1, Matrix.mul_one]
  · rintro rfl; rw [Matrix.mul_assoc, h2, Matrix.mul_one]

/-! ## C29: forward kinematics -/

/-- The rows of a robot's DH table whose constants for α are the cosine and sine of some angle. -/
def GoodRows (rows : Fin 6 → Row) : Prop := ∀ i, (rows i).ca ^ 2 + (rows i).sa ^ 2 = 1

theorem links_rigid {rows : Fin 6 → Row} (h : GoodRows rows) (i : Fin 6) : IsRigid (links rows i) :=
  C26_linkCS_rigid (h i) _ _ _

/-- C29: T_06 is the ordered product of the six link transforms, it maps a point of the last frame through all of them, and it
is rigid. -/
theorem C29_forward_kinematics (rows : Fin 6 → Row) (h : GoodRows rows) :
    t06 (links rows) = ((List.finRange 6).map (links rows)).prod ∧
    IsRigid (t06 (links rows)) ∧ LastRow (t06 (links rows)) := by
  have hr : IsRigid (t06 (links rows)) := by
    unfold t06
    exact rigid_mul (rigid_mul (rigid_mul (rigid_mul (rigid_mul (links_rigid h 0) (links_rigid h 1)) (links_rigid h 2))
      (links_rigid h 3)) (links_rigid h 4)) (links_rigid h 5)
  refine ⟨?_, hr, hr.2⟩
  simp [t06, List.finRange_succ, List.finRange_zero, Matrix.mul_assoc]

example : GoodRows (fun i => ⟨Real.cos i, Real.sin i, i, 1, 2⟩) := fun i => by simp

/-! ## C28: the matrix equations -/

/-- All entries of the two sides agree. -/
def MEqn.Holds (e : MEqn) : Prop := e.td = e.ts

theorem topRows_eq {A : M4} (h : LastRow A) : topRows A = A := by
  ext i j
  by_cases hi : i.val < 3
  · simp [topRows, hi]
  · have : i = 3 := by apply Fin.ext; simp; omega
    subst this
    obtain ⟨h0, h1, h2, h3⟩ := h
    fin_cases j
    · exact h0.symm
    · exact h1.symm
    · exact h2.symm
    · exact h3.symm

theorem last_mul {A B : M4} (hA : LastRow A) (hB : LastRow B) : LastRow (A * B) := by
  rw [eq_mk4 hA, eq_mk4 hB, mk4_mul]; exact mk4_last _ _

theorem mequationSet_iff (T : Fin 6 → M4) (R : ∀ i, IsRigid (T i)) (td : M4) (hd : LastRow td) :
    ∀ e ∈ mequationSet T td, (e.Holds ↔ td = t06 T) := by
  have L : ∀ i, LastRow (T i) := fun i => (R i).2
  have LI : ∀ i, LastRow (hInv (T i)) := fun i => (C27_inverse (R i)).2.2.2
  have hold : ∀ {A B : M4}, LastRow A → LastRow B → ((matrixEquation A B).Holds ↔ A = B) := by
    intro A B hA hB
    unfold MEqn.Holds matrixEquation
    simp only [topRows_eq hA, topRows_eq hB]
  intro e he
  simp only [mequationSet, List.mem_cons, List.not_mem_nil, or_false] at he
  rcases he with rfl | rfl | rfl | rfl | rfl | rfl | rfl | rfl
  · rw [hold hd (by repeat (first | exact L _ | apply last_mul))]; rfl
  · rw [hold (by repeat (first | exact L _ | exact LI _ | exact hd | apply last_mul))
      (by repeat (first | exact L _ | apply last_mul)), C27_inverse_cancels (R 0), t06]
    simp only [Matrix.mul_assoc]
  · rw [hold (by repeat (first | exact L _ | exact LI _ | exact hd | apply last_mul))
      (by repeat (first | exact L _ | apply last_mul)), Matrix.mul_assoc, C27_inverse_cancels (R 1), C27_inverse_cancels (R 0), t06]
    simp only [Matrix.mul_assoc]
  · rw [hold (by repeat (first | exact L _ | exact LI _ | exact hd | apply last_mul))
      (by repeat (first | exact L _ | apply last_mul))]
    simp only [Matrix.mul_assoc]
    rw [C27_inverse_cancels (R 2), C27_inverse_cancels (R 1), C27_inverse_cancels (R 0), t06]
    simp only [Matrix.mul_assoc]
  · rw [hold (by repeat (first | exact L _ | exact LI _ | exact hd | apply last_mul))
      (by repeat (first | exact L _ | apply last_mul))]
    simp only [Matrix.mul_assoc]
    rw [C27_inverse_cancels (R 3), C27_inverse_cancels (R 2), C27_inverse_cancels (R 1), C27_inverse_cancels (R 0), t06]
    simp only [Matrix.mul_assoc]
  · rw [hold (by repeat (first | exact L _ | exact LI _ | exact hd | apply last_mul))
      (by repeat (first | exact L _ | apply last_mul))]
    simp only [Matrix.mul_assoc]
    rw [C27_inverse_cancels (R 4), C27_inverse_cancels (R 3), C27_inverse_cancels (R 2), C27_inverse_cancels (R 1),
      C27_inverse_cancels (R 0), t06]
    simp only [Matrix.mul_assoc]
  · rw [hold (by repeat (first | exact L _ | exact LI _ | exact hd | apply last_mul))
      (by repeat (first | exact L _ | apply last_mul)), inverse_cancels_right (R 5), C27_inverse_cancels (R 0), t06]
    simp only [Matrix.mul_assoc]
  · rw [hold (by repeat (first | exact L _ | exact LI _ | exact hd | apply last_mul))
      (by repeat (first | exact L _ | apply last_mul)), inverse_cancels_right (R 4), inverse_cancels_right (R 5)]
    simp only [Matrix.mul_assoc]
    rw [C27_inverse_cancels (R 1), C27_inverse_cancels (R 0), t06]
    simp only [Matrix.mul_assoc]

/-- The target pose a user has in mind: rotation entries `r_ij` in row i, column j, position in the last column. -/
def Pose (r : M3) (p : V3) : M4 :=
  !![r 0 0, r 0 1, r 0 2, p 0; r 1 0, r 1 1, r 1 2, p 1; r 2 0, r 2 1, r 2 2, p 2; 0, 0, 0, 1]

/-- C28. The left-hand side the equations are built from is the target pose. -/
theorem C28_target (r : M3) (p : V3) : ikLhs r p = Pose r p := by
  ext i j
  fin_cases i <;> fin_cases j <;> simp [ikLhs, mk4, Pose]

/-- C28. For every DH table, joint vector and target pose: each of the eight matrix equations holds if
and only if the target equals the forward kinematics. -/
theorem C28_equations_equivalent (rows : Fin 6 → Row) (h : GoodRows rows) (r : M3) (p : V3) :
    (mequationSet (links rows) (ikLhs r p)).length = 8 ∧
    ∀ e ∈ mequationSet (links rows) (ikLhs r p), (e.Holds ↔ Pose r p = t06 (links rows)) := by
  rw [← C28_target]
  exact ⟨rfl, mequationSet_iff _ (links_rigid h) _ (mk4_last r p)⟩

/-! ## C32: wrap_angle_N -/

/-- C32 for angles within [-3π, 3π): the result differs by a multiple of 2π and lies in [-π, π).
Missing: angles outside, where only the first part holds (below). -/
theorem C32_wrap_partial (t : ℝ) (h1 : -(3 * π) ≤ t) (h2 : t < 3 * π) :
    (∃ k : ℤ, wrapAngle t = t + k * (2 * π)) ∧ -π ≤ wrapAngle t ∧ wrapAngle t < π := by
  have hp := Real.pi_pos
  unfold wrapAngle
  split
  · exact ⟨⟨1, by push_cast; ring⟩, by linarith, by linarith⟩
  · split
    · exact ⟨⟨-1, by push_cast; ring⟩, by linarith, by linarith⟩
    · exact ⟨⟨0, by push_cast; ring⟩, by linarith, by linarith⟩

/-- C32, every angle: the value is unchanged modulo 2π. -/
theorem C32_wrap_congruent (t : ℝ) : ∃ k : ℤ, wrapAngle t = t + k * (2 * π) := by
  unfold wrapAngle
  split
  · exact ⟨1, by push_cast; ring⟩
  · split
    · exact ⟨-1, by push_cast; ring⟩
    · exact ⟨0, by push_cast; ring⟩

/-- C32 is false of the code: *every* angle outside [-3π, 3π) is left out of the range. -/
theorem C32_wrap_violation (t : ℝ) (h : t < -(3 * π) ∨ 3 * π ≤ t) : wrapAngle t < -π ∨ π ≤ wrapAngle t := by
  have hp := Real.pi_pos
  unfold wrapAngle
  rcases h with h | h
  · left; rw [if_pos (by linarith)]; linarith
  · right; rw [if_neg (by linarith), if_pos (by linarith)]; linarith

example : wrapAngle (3 * π) = π := by
  have hp := Real.pi_pos
  unfold wrapAngle
  rw [if_neg (by linarith), if_pos (by linarith)]; ring

/-- `approx_N` is reflexive and symmetric, and accepts only values within 0.1 % or 1e-5. -/
theorem C32_approx (a b : ℝ) : approx a a ∧ (approx a b → approx b a) ∧
    (approx a b → |a - b| < 0.001 * max |a| |b| ∨ |a - b| < 0.00001) := by
  refine ⟨?_, ?_, ?_⟩
  · simp only [approx, sub_self, abs_zero]; exact lt_max_of_lt_right (by norm_num)
  · unfold approx; rw [abs_sub_comm, max_comm |a|]; exact id
  · intro h; exact lt_max_iff.1 h

end Verif.Kin
