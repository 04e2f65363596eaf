import Verif.Kin.Wrist
import Verif.Kin.PumaProps
/-!
# C69: the generated solutions of the Wrist
-/
set_option linter.unusedSimpArgs false
namespace Verif.Kin
open Matrix Verif.Sym Verif.Leaf Real

/-- the matrix of the ZYX Euler angles -/
def zyxRot (ca sa cb sb cc sc : ℝ) : M3 :=
  !![ca * cb, ca * sb * sc - sa * cc, ca * sb * cc + sa * sc;
     sa * cb, sa * sb * sc + ca * cc, sa * sb * cc - ca * sc;
     -sb, cb * sc, cb * cc]

/-- The DH table gives the ZYX Euler angles, as the comment in ik_robots.py:340-341 says. -/
theorem wristFK_eq (q : Fin 3 → ℝ) :
    wristFK q = mk4 (zyxRot (cos (q 0)) (sin (q 0)) (cos (q 1)) (sin (q 1)) (cos (q 2)) (sin (q 2))) ![0, 0, 0] := by
  have e1 : Expr.eval (wristEnv q) minusHalfPi = -(π / 2) := by simp [minusHalfPi, Expr.eval, Fn1.eval, Fn2.eval, wristEnv]; ring
  have e2 : Expr.eval (wristEnv q) halfPi = π / 2 := by simp [halfPi, Expr.eval, Fn2.eval, wristEnv]
  have eB : Expr.eval (wristEnv q) (addE halfPi (.sym "B")) = π / 2 + q 1 := by simp [addE, Expr.eval, Fn2.eval, e2, wristEnv]
  have eC : Expr.eval (wristEnv q) (addE halfPi (.sym "C")) = π / 2 + q 2 := by simp [addE, Expr.eval, Fn2.eval, e2, wristEnv]
  have eA : Expr.eval (wristEnv q) (.sym "A") = q 0 := by simp [Expr.eval, wristEnv]
  have e0 : Expr.eval (wristEnv q) zero = 0 := by simp [zero, Expr.eval]
  simp only [wristFK, t06, wristDH, Matrix.cons_val, e1, e2, eA, eB, eC, e0]
  simp only [linkN, cos_neg, sin_neg, cos_pi_div_two, sin_pi_div_two, cos_zero, sin_zero, sin_add, cos_add]
  simp
  ext i j
  fin_cases i <;> fin_cases j <;> simp [mk4, zyxRot] <;> ring

theorem wrist_elements {Q : M3} (h : IsRotation Q) :
    Q 0 0 ^ 2 + Q 1 0 ^ 2 + Q 2 0 ^ 2 = 1 ∧ Q 2 0 ^ 2 + Q 2 1 ^ 2 + Q 2 2 ^ 2 = 1 ∧
    Q 0 0 * Q 0 1 + Q 1 0 * Q 1 1 + Q 2 0 * Q 2 1 = 0 ∧ Q 0 0 * Q 0 2 + Q 1 0 * Q 1 2 + Q 2 0 * Q 2 2 = 0 ∧
    Q 2 2 = Q 0 0 * Q 1 1 - Q 0 1 * Q 1 0 ∧ Q 2 1 = Q 0 2 * Q 1 0 - Q 0 0 * Q 1 2 := by
  obtain ⟨h1, h2, h3⟩ := h
  have had : adjugate Q = Qᵀ := by
    have := Matrix.mul_adjugate Q
    rw [h3, one_smul] at this
    calc adjugate Q = (Qᵀ * Q) * adjugate Q := by rw [h1, one_mul]
      _ = Qᵀ := by rw [Matrix.mul_assoc, this, mul_one]
  rw [Matrix.adjugate_fin_three] at had
  have e (i j) := congrFun (congrFun h1 i) j
  have f (i j) := congrFun (congrFun h2 i) j
  have g (i j) := congrFun (congrFun had i) j
  have e00 := e 0 0
  have f22 := f 2 2
  have e01 := e 0 1
  have e02 := e 0 2
  have g22 := g 2 2
  have g12 := g 1 2
  simp [Matrix.mul_apply, Fin.sum_univ_three] at e00 f22 e01 e02 g22 g12
  refine ⟨by linarith, by linarith, by linarith, by linarith, by linarith, by linarith⟩

/-- one row of the function: σ = 1 for the first, -1 for the second -/
def IsWristRow (T : M4) (σ : ℝ) (row : List ℝ) : Prop := ∃ A B C, row = [A, B, C] ∧ A = atan2 (σ * T 1 0) (σ * T 0 0) ∧ cos A ≠ 0 ∧
  B = atan2 (-T 2 0) (T 0 0 / cos A) ∧ cos B ≠ 0 ∧ C = atan2 (T 2 1 / cos B) (T 2 2 / cos B)

theorem ikinWrist_iff {T : M4} {rows : List (List ℝ)} : ikinWrist T = .ok rows ↔
    ∃ r1 r2, rows = [r1, r2] ∧ IsWristRow T 1 r1 ∧ IsWristRow T (-1) r2 := by
  simp only [ikinWrist, bindE, pureE, pyDiv_ok, IsWristRow, one_mul, neg_one_mul]
  constructor
  · intro h
    obtain ⟨As1, hA1, h⟩ := h
    obtain ⟨As2, hA2, h⟩ := h
    obtain ⟨x, ⟨k2, hx⟩, h⟩ := h
    obtain ⟨Bs2, hB2, h⟩ := h
    obtain ⟨y, ⟨k1, hy⟩, h⟩ := h
    obtain ⟨Bs1, hB1, h⟩ := h
    obtain ⟨u, ⟨l1, hu⟩, h⟩ := h
    obtain ⟨v, ⟨-, hv⟩, h⟩ := h
    obtain ⟨Cs2, hC2, h⟩ := h
    obtain ⟨w, ⟨l2, hw⟩, h⟩ := h
    obtain ⟨z, ⟨-, hz⟩, h⟩ := h
    obtain ⟨Cs1, hC1, h⟩ := h
    subst hx hy hu hv hw hz
    exact ⟨_, _, h.symm, ⟨As1, Bs1, Cs2, rfl, hA1.symm, k1, hB1.symm, l1, hC2.symm⟩, ⟨As2, Bs2, Cs1, rfl, hA2.symm, k2, hB2.symm, l2, hC1.symm⟩⟩
  · rintro ⟨r1, r2, rfl, ⟨A1, B1, C1, rfl, a1, k1, b1, l1, c1⟩, ⟨A2, B2, C2, rfl, a2, k2, b2, l2, c2⟩⟩
    exact ⟨A1, a1.symm, A2, a2.symm, _, ⟨k2, rfl⟩, B2, b2.symm, _, ⟨k1, rfl⟩, B1, b1.symm, _, ⟨l1, rfl⟩, _, ⟨l1, rfl⟩, C1, c1.symm, _, ⟨l2, rfl⟩, _,
      ⟨l2, rfl⟩, C2, c2.symm, rfl⟩

theorem wrist_row_iff {T : M4} {rows : List (List ℝ)} (h : ikinWrist T = .ok rows) {row : List ℝ} :
    row ∈ rows ↔ ∃ σ : ℝ, (σ = 1 ∨ σ = -1) ∧ IsWristRow T σ row := by
  obtain ⟨r1, r2, rfl, k1, k2⟩ := ikinWrist_iff.1 h
  have un : ∀ {σ r r'}, IsWristRow T σ r → IsWristRow T σ r' → r = r' := by
    rintro σ r r' ⟨A, B, C, rfl, a, k, b, l, c⟩ ⟨A', B', C', rfl, a', k', b', l', c'⟩
    subst a; subst a'; subst b; subst b'; subst c; subst c'; rfl
  simp only [List.mem_cons, List.not_mem_nil, or_false]
  constructor
  · rintro (rfl | rfl)
    · exact ⟨1, .inl rfl, k1⟩
    · exact ⟨-1, .inr rfl, k2⟩
  · rintro ⟨σ, rfl | rfl, k⟩
    · exact .inl (un k k1)
    · exact .inr (un k k2)

/-- the values that a row is made of -/
theorem wrist_row_vals {T : M4} (hT : IsRigid T) {σ : ℝ} (hσ : σ = 1 ∨ σ = -1) {A B C : ℝ} (hA : A = atan2 (σ * T 1 0) (σ * T 0 0)) (kA : cos A ≠ 0)
    (hB : B = atan2 (-T 2 0) (T 0 0 / cos A)) (kB : cos B ≠ 0) (hC : C = atan2 (T 2 1 / cos B) (T 2 2 / cos B)) :
    T 0 0 = cos A * cos B ∧ T 1 0 = sin A * cos B ∧ T 2 0 = -sin B ∧ T 2 1 = cos B * sin C ∧ T 2 2 = cos B * cos C ∧ 0 < σ * cos B := by
  obtain ⟨e1, e2, -⟩ := wrist_elements hT.1
  change T 0 0 ^ 2 + T 1 0 ^ 2 + T 2 0 ^ 2 = 1 at e1
  change T 2 0 ^ 2 + T 2 1 ^ 2 + T 2 2 ^ 2 = 1 at e2
  have hσ2 : σ ^ 2 = 1 := by rcases hσ with rfl | rfl <;> norm_num
  obtain ⟨p1, p2⟩ := polar (σ * T 1 0) (σ * T 0 0)
  rw [← hA, show (σ * T 0 0) ^ 2 + (σ * T 1 0) ^ 2 = T 0 0 ^ 2 + T 1 0 ^ 2 by linear_combination (T 0 0 ^ 2 + T 1 0 ^ 2) * hσ2] at p1 p2
  have hρ : √(T 0 0 ^ 2 + T 1 0 ^ 2) ^ 2 = T 0 0 ^ 2 + T 1 0 ^ 2 := Real.sq_sqrt (by positivity)
  have hρ0 := Real.sqrt_nonneg (T 0 0 ^ 2 + T 1 0 ^ 2)
  generalize √(T 0 0 ^ 2 + T 1 0 ^ 2) = ρ at p1 p2 hρ hρ0
  have d : T 0 0 / cos A = σ * ρ := by
    rw [div_eq_iff kA]; linear_combination -σ * p1 - T 0 0 * hσ2
  rw [d] at hB
  obtain ⟨b, a⟩ := atan2_polar one_pos (y := -T 2 0) (x := σ * ρ) (by linear_combination e1 + hρ + ρ ^ 2 * hσ2)
  rw [← hB, div_one] at a b
  have hc : T 2 1 ^ 2 + T 2 2 ^ 2 = cos B ^ 2 := by rw [a]; linear_combination e2 - e1 - hρ - ρ ^ 2 * hσ2
  obtain ⟨a', b'⟩ := atan2_polar one_pos (y := T 2 1 / cos B) (x := T 2 2 / cos B) (by field_simp; linear_combination hc)
  rw [← hC, div_one] at a' b'
  rw [a', b']
  refine ⟨?_, ?_, ?_, ?_, ?_, ?_⟩
  · rw [a]; linear_combination -σ * p1 - T 0 0 * hσ2
  · rw [a]; linear_combination -σ * p2 - T 1 0 * hσ2
  · rw [b]; ring
  · field_simp
  · field_simp
  · refine lt_of_le_of_ne ?_ (Ne.symm ?_)
    · rw [a, show σ * (σ * ρ) = ρ by linear_combination ρ * hσ2]; exact hρ0
    · exact mul_ne_zero (by rcases hσ with rfl | rfl <;> norm_num) kB

theorem wrist_row_sol {T : M4} (hT : IsRigid T) {σ : ℝ} (hσ : σ = 1 ∨ σ = -1) {row : List ℝ} (h : IsWristRow T σ row) :
    rot (wristFK (wristJoints row)) = rot T := by
  obtain ⟨A, B, C, rfl, hA, kA, hB, kB, hC⟩ := h
  obtain ⟨t00, t10, t20, t21, t22, -⟩ := wrist_row_vals hT hσ hA kA hB kB hC
  obtain ⟨-, -, e3, e4, e5, e6⟩ := wrist_elements hT.1
  change T 0 0 * T 0 1 + T 1 0 * T 1 1 + T 2 0 * T 2 1 = 0 at e3
  change T 0 0 * T 0 2 + T 1 0 * T 1 2 + T 2 0 * T 2 2 = 0 at e4
  change T 2 2 = T 0 0 * T 1 1 - T 0 1 * T 1 0 at e5
  change T 2 1 = T 0 2 * T 1 0 - T 0 0 * T 1 2 at e6
  rw [wristFK_eq, rot_mk4]
  simp only [wristJoints, List.getD_cons_zero, List.getD_cons_succ, Matrix.cons_val]
  have uA := sin_sq_add_cos_sq A
  clear hA hB hC
  generalize cos A = ca at *
  generalize sin A = sa at *
  generalize cos B = cb at *
  generalize sin B = sb at *
  generalize cos C = cc at *
  generalize sin C = sc at *
  rw [t00, t10, t20, t21] at e3
  rw [t00, t10, t20, t22] at e4
  rw [t00, t10, t22] at e5
  rw [t00, t10, t21] at e6
  have f3 : ca * T 0 1 + sa * T 1 1 = sb * sc := by apply mul_left_cancel₀ kB; linear_combination e3
  have f4 : ca * T 0 2 + sa * T 1 2 = sb * cc := by apply mul_left_cancel₀ kB; linear_combination e4
  have f5 : cc = ca * T 1 1 - sa * T 0 1 := by apply mul_left_cancel₀ kB; linear_combination e5
  have f6 : sc = sa * T 0 2 - ca * T 1 2 := by apply mul_left_cancel₀ kB; linear_combination e6
  have t01 : ca * sb * sc - sa * cc = T 0 1 := by linear_combination T 0 1 * uA - ca * f3 - sa * f5
  have t11 : sa * sb * sc + ca * cc = T 1 1 := by linear_combination T 1 1 * uA - sa * f3 + ca * f5
  have t02 : ca * sb * cc + sa * sc = T 0 2 := by linear_combination T 0 2 * uA - ca * f4 + sa * f6
  have t12 : sa * sb * cc - ca * sc = T 1 2 := by linear_combination T 1 2 * uA - sa * f4 - ca * f6
  ext i j
  fin_cases i <;> fin_cases j <;> simp [zyxRot, rot]
  exacts [t00.symm, t01, t02, t10.symm, t11, t12, t20.symm, t21.symm, t22.symm]

/-! ## C69 -/

/-- **C69, what is right.** Every solution that the function returns gives the orientation of the pose, for every rigid pose. Missing: where it returns
(`C69_returns_partial`). -/
theorem C69_orientation_partial (T : M4) (hT : IsRigid T) (rows : List (List ℝ)) (h : ikinWrist T = .ok rows) (row : List ℝ) (hr : row ∈ rows) :
    rot (wristFK (wristJoints row)) = rot T := by
  obtain ⟨σ, hσ, k⟩ := (wrist_row_iff h).1 hr
  exact wrist_row_sol hT hσ k

/-- **C69: no solution is missing.** If the function returns, every joint vector that gives the orientation is one of the two, modulo full turns. -/
theorem C69_all (T : M4) (rows : List (List ℝ)) (h : ikinWrist T = .ok rows) (q : Fin 3 → ℝ) (hq : rot (wristFK q) = rot T) :
    ∃ row ∈ rows, ∀ i, SameAngle (q i) (wristJoints row i) := by
  rw [wristFK_eq, rot_mk4] at hq
  have w (i j) := congrFun (congrFun hq i) j
  have w00 : cos (q 0) * cos (q 1) = T 0 0 := w 0 0
  have w10 : sin (q 0) * cos (q 1) = T 1 0 := w 1 0
  have w20 : -sin (q 1) = T 2 0 := w 2 0
  have w21 : cos (q 1) * sin (q 2) = T 2 1 := w 2 1
  have w22 : cos (q 1) * cos (q 2) = T 2 2 := w 2 2
  obtain ⟨r1, r2, rfl, k1, k2⟩ := ikinWrist_iff.1 h
  have kB : cos (q 1) ≠ 0 := by
    intro h0
    rw [h0, mul_zero] at w00 w10
    obtain ⟨A, B, C, -, hA, -, hB, hb, -⟩ := k1
    rw [← w00, zero_div] at hB
    apply hb
    have : T 2 0 ≠ 0 := by
      rw [← w20]; intro h1; have := sin_sq_add_cos_sq (q 1); rw [h0, neg_eq_zero.1 h1] at this; norm_num at this
    have p := (polar (-T 2 0) 0).1
    rw [← hB] at p
    rcases mul_eq_zero.1 p with h2 | h2
    · have := (Real.sqrt_eq_zero (by positivity)).1 h2
      simp at this; contradiction
    · exact h2
  have main : ∀ {σ : ℝ} {row : List ℝ}, 0 < σ * cos (q 1) → IsWristRow T σ row → ∀ i, SameAngle (q i) (wristJoints row i) := by
    rintro σ row hs ⟨A, B, C, rfl, hA, kA, hB, -, hC⟩
    have sA : SameAngle (q 0) A := by
      rw [hA]; apply sameAngle_atan2 hs
      · rw [← w10]; ring
      · rw [← w00]; ring
    obtain ⟨a2, a1⟩ := sameAngle_iff.1 sA
    have sB : SameAngle (q 1) B := by
      rw [hB]; apply sameAngle_atan2 one_pos
      · rw [← w20]; ring
      · rw [← w00, a1, one_mul]; field_simp
    obtain ⟨b2, b1⟩ := sameAngle_iff.1 sB
    have sC : SameAngle (q 2) C := by
      rw [hC]; apply sameAngle_atan2 one_pos
      · rw [← w21, ← b1, one_mul]; field_simp
      · rw [← w22, ← b1, one_mul]; field_simp
    intro i
    fin_cases i <;> simp [wristJoints] <;> assumption
  rcases lt_or_gt_of_ne kB with hn | hp
  · exact ⟨r2, by simp, main (σ := -1) (by linarith) k2⟩
  · exact ⟨r1, by simp, main (σ := 1) (by linarith) k1⟩

theorem cos_atan2_ne {y x : ℝ} : cos (atan2 y x) ≠ 0 ↔ x ≠ 0 ∨ y = 0 := by
  constructor
  · intro h
    by_contra hc
    push Not at hc
    obtain ⟨rfl, hy⟩ := hc
    rcases mul_eq_zero.1 (polar y 0).1 with h2 | h2
    · have := (Real.sqrt_eq_zero (by positivity)).1 h2
      simp at this; contradiction
    · exact h h2
  · rintro (h | rfl) h0
    · have := (polar y x).1
      rw [h0, mul_zero] at this
      exact h this.symm
    · have h1 := sin_atan2_zero x
      have := sin_sq_add_cos_sq (atan2 0 x)
      rw [h0, h1] at this; norm_num at this

/-- **C69, where it returns.** For every rigid pose the function computes the two solutions exactly if the element r_11 is not zero. -/
theorem C69_returns_partial (T : M4) (hT : IsRigid T) : (∃ rows, ikinWrist T = .ok rows) ↔ T 0 0 ≠ 0 := by
  constructor
  · rintro ⟨rows, h⟩ h0
    obtain ⟨r1, r2, rfl, ⟨A, B, C, -, hA, kA, hB, kB, -⟩, -⟩ := ikinWrist_iff.1 h
    rw [h0, mul_zero, one_mul] at hA
    rw [h0, zero_div] at hB
    rw [hA, cos_atan2_ne] at kA
    rw [hB, cos_atan2_ne] at kB
    simp at kA kB
    obtain ⟨e1, -⟩ := wrist_elements hT.1
    change T 0 0 ^ 2 + T 1 0 ^ 2 + T 2 0 ^ 2 = 1 at e1
    rw [h0, kA, kB] at e1; norm_num at e1
  · intro h0
    have kA : ∀ σ : ℝ, σ ≠ 0 → cos (atan2 (σ * T 1 0) (σ * T 0 0)) ≠ 0 := fun σ hσ => cos_atan2_ne.2 (.inl (mul_ne_zero hσ h0))
    have kB : ∀ σ : ℝ, σ ≠ 0 → cos (atan2 (-T 2 0) (T 0 0 / cos (atan2 (σ * T 1 0) (σ * T 0 0)))) ≠ 0 :=
      fun σ hσ => cos_atan2_ne.2 (.inl (div_ne_zero h0 (kA σ hσ)))
    exact ⟨_, ikinWrist_iff.2 ⟨_, _, rfl, ⟨_, _, _, rfl, rfl, kA 1 (by norm_num), rfl, kB 1 (by norm_num), rfl⟩,
      ⟨_, _, _, rfl, rfl, kA (-1) (by norm_num), rfl, kB (-1) (by norm_num), rfl⟩⟩⟩

theorem wristFK_rigid (q : Fin 3 → ℝ) : IsRigid (wristFK q) := by
  have h (al a d th : ℝ) : IsRigid (linkN al a d th) := C26_link_rigid al a d th
  exact rigid_mul (rigid_mul (rigid_mul (rigid_mul (rigid_mul (h ..) (h ..)) (h ..)) (h ..)) (h ..)) (h ..)

/-- **C69 violated.** The pose of every joint vector with A or B a right angle is reachable, and the function
computes no solution for it: only B = ±90° is a singularity of the wrist. -/
theorem C69_right_angle_violation (q : Fin 3 → ℝ) (hq : cos (q 0) = 0 ∨ cos (q 1) = 0) : ¬ ∃ rows, ikinWrist (wristFK q) = .ok rows := by
  rw [C69_returns_partial _ (wristFK_rigid q), wristFK_eq]
  rcases hq with h | h <;> simp [mk4, zyxRot, h]

/-- **C69: the two solutions are different.** -/
theorem C69_distinct (T : M4) (hT : IsRigid T) (rows : List (List ℝ)) (h : ikinWrist T = .ok rows) :
    ∃ r1 r2, rows = [r1, r2] ∧ ¬ SameAngle (wristJoints r1 0) (wristJoints r2 0) := by
  have h0 := (C69_returns_partial T hT).1 ⟨rows, h⟩
  obtain ⟨r1, r2, rfl, ⟨A, B, C, rfl, hA, kA, hB, kB, hC⟩, ⟨A', B', C', rfl, hA', kA', hB', kB', hC'⟩⟩ := ikinWrist_iff.1 h
  refine ⟨_, _, rfl, ?_⟩
  obtain ⟨t, -, -, -, -, hp⟩ := wrist_row_vals hT (.inl rfl) hA kA hB kB hC
  obtain ⟨t', -, -, -, -, hp'⟩ := wrist_row_vals hT (.inr rfl) hA' kA' hB' kB' hC'
  simp only [wristJoints, List.getD_cons_zero, Matrix.cons_val]
  intro hs
  rw [(sameAngle_iff.1 hs).2] at t
  have : cos A' * (cos B - cos B') = 0 := by linear_combination t' - t
  rcases mul_eq_zero.1 this with h1 | h1
  · exact kA' h1
  · linarith

/-- The hand of the Wrist stays where it is: no solution reaches a pose at another position. -/
theorem C69_position (q : Fin 3 → ℝ) : pos (wristFK q) = ![0, 0, 0] := by rw [wristFK_eq, pos_mk4]

theorem loopError_zero {T1 T2 : M4} (h : rot T1 = rot T2) (h1 : LastRow T1) (h2 : LastRow T2) : loopError T1 T2 = 0 := by
  have e : ∀ k : Fin 4, ∀ j : Fin 4, j ≠ 3 → T1 k j = T2 k j := by
    intro k j hj
    obtain ⟨j', rfl⟩ : ∃ j' : Fin 3, j = j'.castSucc := ⟨⟨j.val, by omega⟩, rfl⟩
    by_cases hk : k = 3
    · subst hk
      obtain ⟨a, b, c, -⟩ := h1
      obtain ⟨a', b', c', -⟩ := h2
      fin_cases j'
      exacts [a.trans a'.symm, b.trans b'.symm, c.trans c'.symm]
    · obtain ⟨k', rfl⟩ : ∃ k' : Fin 3, k = k'.castSucc := ⟨⟨k.val, by omega⟩, rfl⟩
      exact congrFun (congrFun h k') j'
  have hz : ∀ (l : List ℝ) (m : ℝ), m ≤ 0 → l ≠ [] → (∀ x ∈ l, x = 0) → l.foldl (fun maxe e => if |e| > maxe then |e| else maxe) m = 0 := by
    intro l
    induction l with
    | nil => intro m _ h; exact absurd rfl h
    | cons a l ih =>
      intro m hm _ ha
      obtain rfl := ha a (by simp)
      have hs : (if |(0 : ℝ)| > m then |(0 : ℝ)| else m) = 0 := by
        rw [abs_zero]; split
        · rfl
        · linarith
      rw [List.foldl_cons, hs]
      rcases l with _ | ⟨b, l⟩
      · rfl
      · exact ih 0 le_rfl (by simp) fun x hx => ha x (by simp [hx])
  apply hz
  · norm_num
  · simp [List.finRange_succ]
  · intro x hx
    simp only [List.mem_flatMap, List.mem_map] at hx
    obtain ⟨k, -, j, hj, rfl⟩ := hx
    rw [e k j (by simp at hj; rcases hj with rfl | rfl | rfl <;> decide), sub_self]

/-- **C69, the test.** For every rigid pose with r_11 not zero the errors that the test prints are zero, if numbers are exact: the test passes, wherever
the pose is, although by `C69_position` no solution reaches a pose that is not at the origin. -/
theorem C69_loop_errors (T : M4) (hT : IsRigid T) (h0 : T 0 0 ≠ 0) : loopErrors T = .ok [0, 0] := by
  obtain ⟨rows, h⟩ := (C69_returns_partial T hT).2 h0
  obtain ⟨r1, r2, rfl, -, -⟩ := ikinWrist_iff.1 h
  have e (r) (hr : r ∈ [r1, r2]) : loopError T (wristFK (wristJoints r)) = 0 :=
    loopError_zero (C69_orientation_partial T hT _ h r hr).symm hT.2 (wristFK_rigid _).2
  simp only [loopErrors, h, bind, Except.bind, pure, Except.pure, List.map_cons, List.map_nil]
  rw [e r1 (by simp), e r2 (by simp)]

/-! ## The pose of the test (Wrist_IK_loop_test.py:130-140) -/

/-- `RotX4_N(th) * RotY4_N(2*th)` at the position (0.2, 0.3, 0.6) -/
noncomputable def testPose : M4 := mk4 (rotX (π / 7) * rotY (2 * (π / 7))) ![0.2, 0.3, 0.6]

theorem testPose_rigid : IsRigid testPose := by
  apply rigid_mk4
  exact rot_one_mul (C31_rotations _).1 (C31_rotations _).2.1

theorem testPose_r11 : testPose 0 0 ≠ 0 := by
  have : testPose 0 0 = cos (2 * (π / 7)) := by simp [testPose, mk4, rotX, rotY, Matrix.mul_apply, Fin.sum_univ_three]
  rw [this]
  have := Real.pi_pos
  exact (cos_pos_of_mem_Ioo ⟨by linarith, by linarith⟩).ne'

/-- The test prints errors of zero, although neither solution reaches the pose. -/
example : loopErrors testPose = .ok [0, 0] ∧ ∀ q, wristFK q ≠ testPose := by
  refine ⟨C69_loop_errors _ testPose_rigid testPose_r11, fun q hq => ?_⟩
  have h := C69_position q
  rw [hq, testPose, pos_mk4] at h
  have := congrFun h 0
  norm_num at this

example : ∃ rows, ikinWrist testPose = .ok rows ∧ (∃ r1 r2, rows = [r1, r2] ∧ ¬ SameAngle (wristJoints r1 0) (wristJoints r2 0)) ∧
    (∃ q, rot (wristFK q) = rot testPose) ∧ ∀ q, rot (wristFK q) = rot testPose → ∃ row ∈ rows, ∀ i, SameAngle (q i) (wristJoints row i) := by
  obtain ⟨rows, h⟩ := (C69_returns_partial _ testPose_rigid).2 testPose_r11
  obtain ⟨r1, r2, e, hd⟩ := C69_distinct _ testPose_rigid _ h
  exact ⟨rows, h, ⟨r1, r2, e, hd⟩, ⟨_, C69_orientation_partial _ testPose_rigid _ h r1 (by simp [e])⟩, fun q hq => C69_all _ _ h q hq⟩

/-- A quarter turn about the vertical: reachable, no singularity, no solution. -/
example : ¬ ∃ rows, ikinWrist (wristFK ![π / 2, 0, 0]) = .ok rows := C69_right_angle_violation _ (by simp)

end Verif.Kin
