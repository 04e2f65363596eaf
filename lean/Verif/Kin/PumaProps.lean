import Verif.Kin.PumaLemmas
/-!
# C68: the eight Puma solutions of the checker script
-/
set_option linter.unusedSimpArgs false
namespace Verif.Kin
open Matrix Verif.Sym Verif.Leaf Real

theorem row_of {p : PumaPar} {T : M4} {rows : List (List ℝ)} (h : pumaRows p T = .ok rows) {row : List ℝ} (hr : row ∈ rows) :
    ∃ e1 e3 σ, (e1 = 1 ∨ e1 = -1) ∧ (e3 = 1 ∨ e3 = -1) ∧ (σ = 1 ∨ σ = -1) ∧ IsRow p T e1 e3 σ row := by
  obtain ⟨r1, r2, r3, r4, r5, r6, r7, r8, rfl, k1, k2, k3, k4, k5, k6, k7, k8⟩ := pumaRows_rows h
  simp only [List.mem_cons, List.not_mem_nil, or_false] at hr
  rcases hr with rfl | rfl | rfl | rfl | rfl | rfl | rfl | rfl
  all_goals first
    | exact ⟨_, _, _, by simp, by simp, by simp, k1⟩ | exact ⟨_, _, _, by simp, by simp, by simp, k2⟩
    | exact ⟨_, _, _, by simp, by simp, by simp, k3⟩ | exact ⟨_, _, _, by simp, by simp, by simp, k4⟩
    | exact ⟨_, _, _, by simp, by simp, by simp, k5⟩ | exact ⟨_, _, _, by simp, by simp, by simp, k6⟩
    | exact ⟨_, _, _, by simp, by simp, by simp, k7⟩ | exact ⟨_, _, _, by simp, by simp, by simp, k8⟩

theorem row_for {p : PumaPar} {T : M4} {rows : List (List ℝ)} (h : pumaRows p T = .ok rows) {e1 e3 σ : ℝ} (h1 : e1 = 1 ∨ e1 = -1)
    (h3 : e3 = 1 ∨ e3 = -1) (hσ : σ = 1 ∨ σ = -1) : ∃ row ∈ rows, IsRow p T e1 e3 σ row := by
  obtain ⟨r1, r2, r3, r4, r5, r6, r7, r8, rfl, k1, k2, k3, k4, k5, k6, k7, k8⟩ := pumaRows_rows h
  rcases h1 with rfl | rfl <;> rcases h3 with rfl | rfl <;> rcases hσ with rfl | rfl
  · exact ⟨r7, by simp, k7⟩
  · exact ⟨r2, by simp, k2⟩
  · exact ⟨r3, by simp, k3⟩
  · exact ⟨r6, by simp, k6⟩
  · exact ⟨r4, by simp, k4⟩
  · exact ⟨r8, by simp, k8⟩
  · exact ⟨r5, by simp, k5⟩
  · exact ⟨r1, by simp, k1⟩

/-! ## C68 -/

/-- **C68, what is right: the positions.** Whenever the script computes rows, every row puts the end of the arm at the position of the pose, up to the
height d_1 of the shoulder, which the formulas ignore. Missing: the orientation (`C68_rows_violation`). -/
theorem C68_position_partial (p : PumaPar) (T : M4) (rows : List (List ℝ)) (h : pumaRows p T = .ok rows) (row : List ℝ) (hr : row ∈ rows) :
    pos (pumaFK p (jointsOf row)) = ![T 0 3, T 1 3, T 2 3 + p.d_1] := by
  obtain ⟨e1, e3, σ, h1, h3, -, k⟩ := row_of h hr
  rw [pumaFK_eq, pumaMat_eq, pos_mk4, row_pos h1 h3 k]

/-- **C68 is false for every pose.** Whatever the parameters and the pose: if the script computes rows, no row reaches the pose; the orientation is wrong. -/
theorem C68_rows_violation (p : PumaPar) (T : M4) (rows : List (List ℝ)) (h : pumaRows p T = .ok rows) (row : List ℝ) (hr : row ∈ rows) :
    rot (pumaFK p (jointsOf row)) ≠ rot T := by
  obtain ⟨e1, e3, σ, h1, h3, -, k⟩ := row_of h hr
  obtain ⟨q1, q23, q2, q3, q4, q5, q6, rfl, -, -, -, -, -, h2, -, g4, h5, g5, -⟩ := k
  intro hc
  rw [pumaFK_eq, pumaMat_eq, rot_mk4] at hc
  have e23 : q2 + q3 = q23 := by rw [h2]; ring
  simp only [jointsOf, List.getD_cons_zero, List.getD_cons_succ, Matrix.cons_val, e23] at hc
  have c0 : _ = T 0 2 := congrFun (congrFun hc 0) 2
  have c1 : _ = T 1 2 := congrFun (congrFun hc 1) 2
  simp [armRot, wristRot, Matrix.mul_apply, Fin.sum_univ_three] at c0 c1
  have hq : -T 0 2 * sin q1 + T 1 2 * cos q1 = -(sin q4 * sin q5) := by
    rw [← c0, ← c1]; linear_combination (-sin q4 * sin q5) * sin_sq_add_cos_sq q1
  rw [hq, show -(sin q4 * sin q5) / sin q4 = -sin q5 by field_simp] at h5
  obtain ⟨-, b⟩ := polar (-sin q5) (-T 0 2 * sin q23 * cos q1 - T 1 2 * sin q1 * sin q23 - T 2 2 * cos q23)
  rw [← h5] at b
  have hn := Real.sqrt_nonneg ((-T 0 2 * sin q23 * cos q1 - T 1 2 * sin q1 * sin q23 - T 2 2 * cos q23) ^ 2 + (-sin q5) ^ 2)
  have : (√((-T 0 2 * sin q23 * cos q1 - T 1 2 * sin q1 * sin q23 - T 2 2 * cos q23) ^ 2 + (-sin q5) ^ 2) + 1) * sin q5 = 0 := by linarith
  rcases mul_eq_zero.1 this with h0 | h0
  · linarith
  · exact g5 h0

/-- **C68, corrected.** With the sign of th_5 changed every row reaches every pose, raised by d_1. So for d_1 = 0 and with this correction the eight
solutions are right wherever they are defined. -/
theorem C68_turned (p : PumaPar) (T : M4) (hT : IsRigid T) (rows : List (List ℝ)) (h : pumaRows p T = .ok rows) (row : List ℝ) (hr : row ∈ rows) :
    pumaFK p (turned (jointsOf row)) = raise T p.d_1 := by
  obtain ⟨e1, e3, σ, h1, h3, hσ, k⟩ := row_of h hr
  exact row_sol hT h1 h3 hσ k

theorem sin_atan2_zero (x : ℝ) : sin (atan2 0 x) = 0 := by
  have := (polar 0 x).2
  rcases mul_eq_zero.1 this with h | h
  · have hx : x = 0 := by
      have := (Real.sqrt_eq_zero (by positivity)).1 h
      nlinarith
    subst hx; simp [atan2, show (⟨0, 0⟩ : ℂ) = 0 from rfl]
  · exact h

theorem sumSq_pos {a b : ℝ} (h : a ≠ 0 ∨ b ≠ 0) : 0 < a ^ 2 + b ^ 2 := by
  rcases h with h | h <;> positivity

set_option maxHeartbeats 1000000 in
/-- **C68, corrected: no solution is missing.** Every joint vector that reaches the pose is, modulo full turns, one of the eight rows with the sign of
th_5 changed, unless the arm is singular (the wrist above the base or on the second axis) or degenerate. -/
theorem C68_all (p : PumaPar) (T : M4) (rows : List (List ℝ)) (h : pumaRows p T = .ok rows)
    (hP : T 0 3 ≠ 0 ∨ T 1 3 ≠ 0) (ha2 : p.a_2 ≠ 0) (ha : p.a_3 ≠ 0 ∨ p.d_4 ≠ 0)
    (hW : T 0 3 ^ 2 + T 1 3 ^ 2 - p.d_3 ^ 2 + T 2 3 ^ 2 ≠ 0) (q : Fin 6 → ℝ) (hq : pumaFK p q = raise T p.d_1) :
    ∃ row ∈ rows, ∀ i, SameAngle (q i) (turned (jointsOf row) i) := by
  rw [pumaFK_eq, pumaMat_eq, raise] at hq
  have hpos := congrArg pos hq
  have hrot := congrArg rot hq
  rw [pos_mk4, pos_mk4] at hpos
  rw [rot_mk4, rot_mk4] at hrot
  have x := congrFun hpos 0
  have y := congrFun hpos 1
  have z := congrFun hpos 2
  simp [armPos] at x y z
  have u1 := sin_sq_add_cos_sq (q 0)
  -- th_1
  have k1 : T 0 3 * sin (q 0) + -T 1 3 * cos (q 0) = -p.d_3 := by
    rw [← x, ← y]; linear_combination -p.d_3 * u1
  have kX : T 0 3 * cos (q 0) + T 1 3 * sin (q 0) = p.a_2 * cos (q 1) + p.a_3 * cos (q 1 + q 2) - p.d_4 * sin (q 1 + q 2) := by
    rw [← x, ← y]; linear_combination (p.a_2 * cos (q 1) + p.a_3 * cos (q 1 + q 2) - p.d_4 * sin (q 1 + q 2)) * u1
  have hP2 : 0 < T 0 3 ^ 2 + (-T 1 3) ^ 2 := sumSq_pos (hP.imp id neg_ne_zero.2)
  obtain ⟨e1, he1, s1⟩ : ∃ e1 : ℝ, (e1 = 1 ∨ e1 = -1) ∧
      SameAngle (q 0) (atan2 (T 0 3) (-T 1 3) + atan2 (e1 * √(T 0 3 ^ 2 + T 1 3 ^ 2 - p.d_3 ^ 2)) (-p.d_3)) := by
    have hi := (sincos_iff hP2 (sincos_bound k1)).1 k1
    rw [show T 0 3 ^ 2 + (-T 1 3) ^ 2 - (-p.d_3) ^ 2 = T 0 3 ^ 2 + T 1 3 ^ 2 - p.d_3 ^ 2 by ring] at hi
    rcases hi with hi | hi
    · exact ⟨1, .inl rfl, by rwa [one_mul]⟩
    · exact ⟨-1, .inr rfl, by rwa [neg_one_mul]⟩
  generalize hq1 : atan2 (T 0 3) (-T 1 3) + atan2 (e1 * √(T 0 3 ^ 2 + T 1 3 ^ 2 - p.d_3 ^ 2)) (-p.d_3) = q1 at s1
  obtain ⟨a1, b1⟩ := sameAngle_iff.1 s1
  rw [a1, b1] at kX u1 k1
  -- th_3
  have c2 : cos (q 1) = cos (q 1 + q 2) * cos (q 2) + sin (q 1 + q 2) * sin (q 2) := by rw [← cos_sub]; congr 1; ring
  have s2 : sin (q 1) = sin (q 1 + q 2) * cos (q 2) - cos (q 1 + q 2) * sin (q 2) := by rw [← sin_sub]; congr 1; ring
  rw [c2] at kX
  have kZ : T 2 3 = -p.a_2 * sin (q 1) - p.a_3 * sin (q 1 + q 2) - p.d_4 * cos (q 1 + q 2) := by linarith
  rw [s2] at kZ
  have u3 := sin_sq_add_cos_sq (q 2)
  have u23 := sin_sq_add_cos_sq (q 1 + q 2)
  have k3 : -2 * p.a_2 * p.d_4 * sin (q 2) + 2 * p.a_2 * p.a_3 * cos (q 2) =
      T 2 3 ^ 2 - p.a_2 ^ 2 - p.a_3 ^ 2 - p.d_4 ^ 2 + (T 0 3 * cos q1 + T 1 3 * sin q1) ^ 2 := by
    rw [kX, kZ]
    generalize sin (q 2) = s3 at *
    generalize cos (q 2) = c3 at *
    generalize sin (q 1 + q 2) = s23 at *
    generalize cos (q 1 + q 2) = c23 at *
    linear_combination -((p.a_2 * c3 + p.a_3) ^ 2 + (p.a_2 * s3 - p.d_4) ^ 2) * u23 - p.a_2 ^ 2 * u3
  have hA : 0 < (-2 * p.a_2 * p.d_4) ^ 2 + (2 * p.a_2 * p.a_3) ^ 2 := sumSq_pos (by
    rcases ha with h | h
    · right; simp [ha2, h]
    · left; simp [ha2, h])
  obtain ⟨e3, he3, s3⟩ : ∃ e3 : ℝ, (e3 = 1 ∨ e3 = -1) ∧
      SameAngle (q 2) (atan2 (-2 * p.a_2 * p.d_4) (2 * p.a_2 * p.a_3) + atan2 (e3 * √(4 * p.a_2 ^ 2 * p.a_3 ^ 2 + 4 * p.a_2 ^ 2 * p.d_4 ^ 2 -
      (T 2 3 ^ 2 - p.a_2 ^ 2 - p.a_3 ^ 2 - p.d_4 ^ 2 + (T 0 3 * cos q1 + T 1 3 * sin q1) ^ 2) ^ 2))
      (T 2 3 ^ 2 - p.a_2 ^ 2 - p.a_3 ^ 2 - p.d_4 ^ 2 + (T 0 3 * cos q1 + T 1 3 * sin q1) ^ 2)) := by
    have hi := (sincos_iff hA (sincos_bound k3)).1 k3
    rw [show (-2 * p.a_2 * p.d_4) ^ 2 + (2 * p.a_2 * p.a_3) ^ 2 = 4 * p.a_2 ^ 2 * p.a_3 ^ 2 + 4 * p.a_2 ^ 2 * p.d_4 ^ 2 by ring] at hi
    rcases hi with hi | hi
    · exact ⟨1, .inl rfl, by rwa [one_mul]⟩
    · exact ⟨-1, .inr rfl, by rwa [neg_one_mul]⟩
  -- the row
  obtain ⟨row, hrow, k⟩ := row_for h he1 he3 (σ := if sin (q 4) < 0 then 1 else -1) (by split <;> simp)
  refine ⟨row, hrow, ?_⟩
  obtain ⟨q1', q23, q2, q3, q4, q5, q6, rfl, -, h1, -, h3, h23, h2, h4, g4, h5, g5, h6⟩ := k
  rw [hq1] at h1; subst h1
  rw [← h3] at s3
  obtain ⟨a3, b3⟩ := sameAngle_iff.1 s3
  -- th_23
  have s23 : SameAngle (q 1 + q 2) q23 := by
    rw [h23]
    apply sameAngle_atan2 (r := (T 0 3 * cos q1' + T 1 3 * sin q1') ^ 2 + T 2 3 ^ 2)
    · refine lt_of_le_of_ne (by positivity) (Ne.symm ?_)
      intro h0
      apply hW
      linear_combination h0 - (T 0 3 ^ 2 + T 1 3 ^ 2) * u1 + (T 0 3 * sin q1' + -T 1 3 * cos q1' - p.d_3) * k1
    · rw [← a3, ← b3, show -T 0 3 * cos q1' - T 1 3 * sin q1' = -(T 0 3 * cos q1' + T 1 3 * sin q1') by ring, kX, kZ]
      generalize sin (q 2) = s3 at *
      generalize cos (q 2) = c3 at *
      generalize sin (q 1 + q 2) = s23 at *
      generalize cos (q 1 + q 2) = c23 at *
      linear_combination -((p.a_2 * c3 + p.a_3) ^ 2 + (p.a_2 * s3 - p.d_4) ^ 2) * s23 * u23
    · rw [← a3, ← b3, show -T 0 3 * cos q1' - T 1 3 * sin q1' = -(T 0 3 * cos q1' + T 1 3 * sin q1') by ring, kX, kZ]
      generalize sin (q 2) = s3 at *
      generalize cos (q 2) = c3 at *
      generalize sin (q 1 + q 2) = s23 at *
      generalize cos (q 1 + q 2) = c23 at *
      linear_combination -((p.a_2 * c3 + p.a_3) ^ 2 + (p.a_2 * s3 - p.d_4) ^ 2) * c23 * u23
  obtain ⟨a23, b23⟩ := sameAngle_iff.1 s23
  -- the wrist
  rw [a1, b1, a23, b23] at hrot
  have hwr : (armRot (cos q1') (sin q1') (cos q23) (sin q23))ᵀ * rot T =
      wristRot (cos (q 3)) (sin (q 3)) (cos (q 4)) (sin (q 4)) (cos (q 5)) (sin (q 5)) := by
    rw [← hrot, ← Matrix.mul_assoc, (armRot_rotation q1' q23).1, one_mul]
  have w (i j) := congrFun (congrFun hwr i) j
  have w22 := w 2 2
  have w02 := w 0 2
  have w12 := w 1 2
  have w11 := w 1 1
  have w10 := w 1 0
  simp [armRot, wristRot, Matrix.mul_apply, Fin.sum_univ_three, rot] at w22 w02 w12 w11 w10
  have r33 : -T 0 2 * sin q1' + T 1 2 * cos q1' = -(sin (q 3) * sin (q 4)) := by linarith
  have r13 : -T 0 2 * cos q1' * cos q23 - T 1 2 * sin q1' * cos q23 + T 2 2 * sin q23 = -(cos (q 3) * sin (q 4)) := by linarith
  have r23 : -T 0 2 * sin q23 * cos q1' - T 1 2 * sin q1' * sin q23 - T 2 2 * cos q23 = cos (q 4) := by linarith
  have r22 : -T 0 1 * sin q23 * cos q1' - T 1 1 * sin q1' * sin q23 - T 2 1 * cos q23 = sin (q 4) * sin (q 5) := by linarith
  have r21 : -T 0 0 * sin q23 * cos q1' - T 1 0 * sin q1' * sin q23 - T 2 0 * cos q23 = -(sin (q 4) * cos (q 5)) := by linarith
  rw [r33, r13] at h4
  rw [r33, r23] at h5
  rw [r22, r21] at h6
  have hs5 : sin (q 4) ≠ 0 := by
    intro h0; rw [h0] at h4; simp only [mul_zero, neg_zero] at h4; rw [h4, sin_atan2_zero] at g4; exact g4 rfl
  have s4 : SameAngle (q 3) q4 := by
    rw [h4]
    split
    · rename_i hneg; apply sameAngle_atan2 (r := -sin (q 4)) (by linarith) <;> ring
    · rename_i hneg
      apply sameAngle_atan2 (r := sin (q 4)) (lt_of_le_of_ne (not_lt.1 hneg) (Ne.symm hs5)) <;> ring
  obtain ⟨a4, b4⟩ := sameAngle_iff.1 s4
  have s5 : SameAngle (-q 4) q5 := by
    rw [h5]
    refine sameAngle_atan2 one_pos ?_ (by rw [cos_neg, one_mul])
    rw [sin_neg, ← a4]; rw [← a4] at g4; field_simp
  obtain ⟨a5, b5⟩ := sameAngle_iff.1 s5
  rw [sin_neg] at a5
  have s6 : SameAngle (q 5) q6 := by
    rw [h6, ← a5]
    refine sameAngle_atan2 one_pos ?_ ?_ <;> field_simp
  have s2' : SameAngle (q 1) q2 := by
    obtain ⟨k, hk⟩ := s23
    obtain ⟨l, hl⟩ := s3
    exact ⟨k - l, by rw [h2]; push_cast; linarith⟩
  have s5' : SameAngle (q 4) (-q5) := by
    obtain ⟨k, hk⟩ := s5
    exact ⟨-k, by push_cast; linarith⟩
  intro i
  fin_cases i <;> simp [turned, jointsOf] <;> assumption

theorem bindX {ε α β : Type} {x : Except ε α} {f : α → Except ε β} : (∃ b, (x >>= f) = .ok b) ↔ ∃ a, x = .ok a ∧ ∃ b, f a = .ok b := by
  cases x with
  | error e => simp [bind, Except.bind]
  | ok a => simp [bind, Except.bind]

theorem exE {α : Type} {e : α} {P : α → Prop} (h : ∀ a, e = a → P a) : ∃ a, e = a ∧ P a := ⟨e, rfl, h e rfl⟩
theorem exS {x : ℝ} (hx : 0 ≤ x) {P : ℝ → Prop} (h : ∀ y, √x = y → P y) : ∃ y, (0 ≤ x ∧ √x = y) ∧ P y := ⟨_, ⟨hx, rfl⟩, h _ rfl⟩
theorem exD {x y : ℝ} (hy : y ≠ 0) {P : ℝ → Prop} (h : ∀ z, x / y = z → P z) : ∃ z, (y ≠ 0 ∧ x / y = z) ∧ P z := ⟨_, ⟨hy, rfl⟩, h _ rfl⟩
theorem sin_ne {y x q : ℝ} (h : atan2 y x = q) (hy : y ≠ 0) : sin q ≠ 0 := by
  intro h0
  have := (polar y x).2
  rw [h, h0, mul_zero] at this
  exact hy this.symm

set_option maxRecDepth 4000 in
/-- **C68, where the script works.** It computes the rows exactly for the poses whose position is within reach (three roots exist) and whose wrist is not
turned by a multiple of 180 degrees in joint 4 (for neither choice of th_1); otherwise a root or quotient does not exist, and it stops with an exception or computes no number. -/
theorem C68_returns (p : PumaPar) (T : M4) : (∃ rows, pumaRows p T = .ok rows) ↔
    0 ≤ T 0 3 ^ 2 + T 1 3 ^ 2 - p.d_3 ^ 2 ∧
    ∀ e1 q1 : ℝ, (e1 = 1 ∨ e1 = -1) → q1 = atan2 (T 0 3) (-T 1 3) + atan2 (e1 * √(T 0 3 ^ 2 + T 1 3 ^ 2 - p.d_3 ^ 2)) (-p.d_3) →
      0 ≤ 4 * p.a_2 ^ 2 * p.a_3 ^ 2 + 4 * p.a_2 ^ 2 * p.d_4 ^ 2 -
        (T 2 3 ^ 2 - p.a_2 ^ 2 - p.a_3 ^ 2 - p.d_4 ^ 2 + (T 0 3 * cos q1 + T 1 3 * sin q1) ^ 2) ^ 2 ∧
      -T 0 2 * sin q1 + T 1 2 * cos q1 ≠ 0 := by
  constructor
  · rintro ⟨rows, h⟩
    constructor
    · obtain ⟨row, -, k⟩ := row_for h (.inl rfl) (.inl rfl) (.inl rfl)
      obtain ⟨_, _, _, _, _, _, _, _, h0, _⟩ := k
      exact h0
    · rintro e1 q1 he hq
      obtain ⟨row, -, k⟩ := row_for h he (.inl rfl) (.inl rfl)
      obtain ⟨q1', q23, q2, q3, q4, q5, q6, rfl, -, h1, g3, -, -, -, h4, g4, -⟩ := k
      rw [← hq] at h1
      subst h1
      refine ⟨g3, fun h0 => g4 ?_⟩
      rw [h4, h0, mul_zero, sin_atan2_zero]
  rintro ⟨hP, hc⟩
  simp only [pumaRows, bindX, pureE, pySqrt_ok, pyDiv_ok]
  refine exS hP ?_; intro y0 h0
  refine exE ?_; intro t1s1 e1s1
  have d1 := hc (1) t1s1 (.inl rfl) (by rw [← e1s1, ← h0]; simp)
  refine exS hP ?_; intro y1 h1
  refine exE ?_; intro t1s2 e1s2
  have d2 := hc (-1) t1s2 (.inr rfl) (by rw [← e1s2, ← h1]; simp)
  refine exS d2.1 ?_; intro y2 h2
  refine exE ?_; intro t3s3 e3s3
  refine exS d1.1 ?_; intro y3 h3
  refine exE ?_; intro t3s2 e3s2
  refine exS d1.1 ?_; intro y4 h4
  refine exE ?_; intro t3s1 e3s1
  refine exS d2.1 ?_; intro y5 h5
  refine exE ?_; intro t3s4 e3s4
  refine exE ?_; intro t23s2 e23s2
  refine exE ?_; intro t23s4 e23s4
  refine exE ?_; intro t23s1 e23s1
  refine exE ?_; intro t23s3 e23s3
  refine exE ?_; intro t2s2 e2s2
  refine exE ?_; intro t2s4 e2s4
  refine exE ?_; intro t2s1 e2s1
  refine exE ?_; intro t2s3 e2s3
  refine exE ?_; intro t4s3 e4s3
  have st4s3 := sin_ne e4s3 (by intro h0; apply d2.2; linarith)
  refine exE ?_; intro t4s7 e4s7
  have st4s7 := sin_ne e4s7 (by intro h0; apply d1.2; linarith)
  refine exE ?_; intro t4s2 e4s2
  have st4s2 := sin_ne e4s2 (by intro h0; apply d1.2; linarith)
  refine exE ?_; intro t4s6 e4s6
  have st4s6 := sin_ne e4s6 (by intro h0; apply d2.2; linarith)
  refine exE ?_; intro t4s4 e4s4
  have st4s4 := sin_ne e4s4 (by intro h0; apply d2.2; linarith)
  refine exE ?_; intro t4s1 e4s1
  have st4s1 := sin_ne e4s1 (by intro h0; apply d1.2; linarith)
  refine exE ?_; intro t4s8 e4s8
  have st4s8 := sin_ne e4s8 (by intro h0; apply d1.2; linarith)
  refine exE ?_; intro t4s5 e4s5
  have st4s5 := sin_ne e4s5 (by intro h0; apply d2.2; linarith)
  refine exD st4s6 ?_; intro y6 h6
  refine exE ?_; intro t5s4 e5s4
  have st5s4 := sin_ne e5s4 (by rw [← h6]; exact div_ne_zero d2.2 st4s6)
  refine exD st4s5 ?_; intro y7 h7
  refine exE ?_; intro t5s8 e5s8
  have st5s8 := sin_ne e5s8 (by rw [← h7]; exact div_ne_zero d2.2 st4s5)
  refine exD st4s3 ?_; intro y8 h8
  refine exE ?_; intro t5s1 e5s1
  have st5s1 := sin_ne e5s1 (by rw [← h8]; exact div_ne_zero d2.2 st4s3)
  refine exD st4s7 ?_; intro y9 h9
  refine exE ?_; intro t5s2 e5s2
  have st5s2 := sin_ne e5s2 (by rw [← h9]; exact div_ne_zero d1.2 st4s7)
  refine exD st4s1 ?_; intro y10 h10
  refine exE ?_; intro t5s6 e5s6
  have st5s6 := sin_ne e5s6 (by rw [← h10]; exact div_ne_zero d1.2 st4s1)
  refine exD st4s2 ?_; intro y11 h11
  refine exE ?_; intro t5s3 e5s3
  have st5s3 := sin_ne e5s3 (by rw [← h11]; exact div_ne_zero d1.2 st4s2)
  refine exD st4s8 ?_; intro y12 h12
  refine exE ?_; intro t5s7 e5s7
  have st5s7 := sin_ne e5s7 (by rw [← h12]; exact div_ne_zero d1.2 st4s8)
  refine exD st4s4 ?_; intro y13 h13
  refine exE ?_; intro t5s5 e5s5
  have st5s5 := sin_ne e5s5 (by rw [← h13]; exact div_ne_zero d2.2 st4s4)
  refine exD st5s3 ?_; intro y14 h14
  refine exD st5s3 ?_; intro y15 h15
  refine exE ?_; intro t6s6 e6s6
  refine exD st5s6 ?_; intro y16 h16
  refine exD st5s6 ?_; intro y17 h17
  refine exE ?_; intro t6s5 e6s5
  refine exD st5s4 ?_; intro y18 h18
  refine exD st5s4 ?_; intro y19 h19
  refine exE ?_; intro t6s1 e6s1
  refine exD st5s5 ?_; intro y20 h20
  refine exD st5s5 ?_; intro y21 h21
  refine exE ?_; intro t6s8 e6s8
  refine exD st5s2 ?_; intro y22 h22
  refine exD st5s2 ?_; intro y23 h23
  refine exE ?_; intro t6s4 e6s4
  refine exD st5s8 ?_; intro y24 h24
  refine exD st5s8 ?_; intro y25 h25
  refine exE ?_; intro t6s2 e6s2
  refine exD st5s7 ?_; intro y26 h26
  refine exD st5s7 ?_; intro y27 h27
  refine exE ?_; intro t6s7 e6s7
  refine exD st5s1 ?_; intro y28 h28
  refine exD st5s1 ?_; intro y29 h29
  refine exE ?_; intro t6s3 e6s3
  exact ⟨_, rfl⟩

/-! ## The script -/

/-- the values of the two dictionaries; 0 for all others, but `v` for d_1 -/
noncomputable def dictEnv (pose params : List (String × Val)) (v : ℝ) (x : String) : ℝ :=
  match (dget params x).or (dget pose x) with
  | some (.expr e) => e.eval Verif.Kin.constEnv
  | _ => if x = "d_1" then v else Verif.Kin.constEnv x

/-- **C68, the script as it is.** Its dictionary of parameters has no d_1, but the table of the Puma has one: whatever pose is typed in,
`forward_kinematics_N` ends the program. (Values are numbers; the angles alpha are multiples of 90 degrees.) -/
theorem C68_missing_violation (P : SymOps) (hP : GoodOps P) (hn : ∀ i, P.nice (pumaDH i).al = true) (pose params : List (String × Val))
    (hd : IsDict params) (hv : ∀ p ∈ pose ++ params, ∃ e, p.2 = .expr e ∧ closed e)
    (h1 : "d_1" ∉ (pose ++ params).map (·.1)) (hpi : "pi" ∉ (pose ++ params).map (·.1)) :
    fkN P (t06S P pumaDH) pose params = .error .exit := by
  simp only [List.map_append, List.mem_append, not_or] at h1 hpi
  have hvals : ∀ {d : List (String × Val)} {x v}, (∀ p ∈ d, p ∈ pose ++ params) → dget d x = some v → ∃ e, v = .expr e ∧ closed e := by
    intro d x v hm hx
    simp only [dget, Option.map_eq_some_iff] at hx
    obtain ⟨p, hp, rfl⟩ := hx
    exact hv p (hm p (List.mem_of_find?_eq_some hp))
  have epi : ∀ v, dictEnv pose params v "pi" = π := by
    intro v
    simp [dictEnv, dget_none hpi.1, dget_none hpi.2, Verif.Kin.constEnv]
  have hresp : ∀ v, Respects (dictEnv pose params v) pose params := by
    intro v x e hx
    have : (dget params x).or (dget pose x) = some (.expr e) := by
      rcases hx with h | ⟨h, h'⟩
      · rw [h]; rfl
      · rw [h, h']; rfl
    have hcl : closed e := by
      rcases hx with h | ⟨_, h'⟩
      · obtain ⟨e', he, hc⟩ := hvals (by simp +contextual) h; cases he; exact hc
      · obtain ⟨e', he, hc⟩ := hvals (by simp +contextual) h'; cases he; exact hc
    rw [dictEnv, this]
    refine Expr.eval_congr fun s hs => ?_
    rw [hcl s hs, epi]; simp [Verif.Kin.constEnv]
  have hal : ∀ v, RespectsAlpha P (dictEnv pose params v) pumaDH := by
    intro v i hi; rw [hn i] at hi; cases hi
  refine C66_missing_value P hP pumaDH pose params hd (fun p hp => (hv p hp).imp fun e he => he.1) (dictEnv pose params 0) (dictEnv pose params 1)
    (epi 0) (epi 1) (hresp 0) (hresp 1) (hal 0) (hal 1) ?_
  intro heq
  have hd1 : ∀ v, dictEnv pose params v "d_1" = v := by
    intro v; simp [dictEnv, dget_none h1.1, dget_none h1.2]
  have hsame : ∀ x, x ≠ "d_1" → dictEnv pose params 0 x = dictEnv pose params 1 x := by
    intro x hx; simp [dictEnv, hx]
  rw [pumaPose_eq _ (epi 0), pumaPose_eq _ (epi 1)] at heq
  have h23 := congrFun (congrFun heq 2) 3
  simp only [pumaMat, hd1] at h23
  rw [hsame "a_2" (by decide), hsame "a_3" (by decide), hsame "d_4" (by decide), hsame "th_2" (by decide), hsame "th_3" (by decide)] at h23
  simp at h23
  linarith

/-- **C68, degrees.** The angle that is put in after conversion to degrees and back is not the computed one: `deg` is 6.28317531/360, not 2π/360. -/
theorem C68_degree_violation (x : ℝ) (h0 : x ≠ 0) (h1 : |x| ≤ 2 * π) : ¬ SameAngle (toDegrees x * degC) x := by
  have hpi := Real.pi_gt_d6
  have hpi' := Real.pi_pos
  have hx := abs_le.1 h1
  have e : toDegrees x * degC = x * (6.28317531 / (2 * π)) := by
    rw [toDegrees, if_neg (not_lt.2 hx.2), degC]; field_simp; ring
  rw [e]
  rintro ⟨k, hk⟩
  have hk2 : x * (6.28317531 - 2 * π) = k * (2 * π) ^ 2 := by
    field_simp at hk; linarith
  have hb : 0 < 2 * π - 6.28317531 := by norm_num at hpi ⊢; linarith
  have hb' : 2 * π - 6.28317531 < 2 * π := by norm_num
  have habs : |(k : ℝ)| * (2 * π) ^ 2 = |x| * (2 * π - 6.28317531) := by
    rw [← abs_of_pos hb, ← abs_mul, ← abs_of_pos (by positivity : 0 < (2 * π) ^ 2), ← abs_mul, ← hk2, ← abs_neg]; congr 1; ring
  have hk0 : k ≠ 0 := by
    rintro rfl
    simp at hk2
    rcases hk2 with h | h
    · exact h0 h
    · linarith
  have hk1 : (1 : ℝ) ≤ |(k : ℝ)| := by
    have := Int.one_le_abs hk0
    exact_mod_cast this
  have hlt : |x| * (2 * π - 6.28317531) < (2 * π) ^ 2 := by
    have : 0 ≤ |x| := abs_nonneg x
    calc |x| * (2 * π - 6.28317531) ≤ 2 * π * (2 * π - 6.28317531) := mul_le_mul_of_nonneg_right h1 hb.le
      _ < 2 * π * (2 * π) := mul_lt_mul_of_pos_left hb' (by positivity)
      _ = (2 * π) ^ 2 := by ring
  nlinarith [sq_nonneg (2 * π)]

/-- a pose straight to the side of an arm without offset: th_1 = ±90 degrees -/
theorem side_th1 {Py e1 : ℝ} (hP : Py < 0) (he : e1 = 1 ∨ e1 = -1) :
    atan2 0 (-Py) + atan2 (e1 * √(0 ^ 2 + Py ^ 2 - 0 ^ 2)) (-0) = e1 * (π / 2) := by
  have h1 : atan2 0 (-Py) = 0 := by
    rw [atan2, show (⟨-Py, 0⟩ : ℂ) = ((-Py : ℝ) : ℂ) from rfl]
    exact Complex.arg_ofReal_of_nonneg (by linarith)
  have h2 : √(0 ^ 2 + Py ^ 2 - 0 ^ 2) = -Py := by
    rw [show (0 : ℝ) ^ 2 + Py ^ 2 - 0 ^ 2 = (-Py) ^ 2 by ring]; exact Real.sqrt_sq (by linarith)
  rw [h1, h2, atan2, zero_add, neg_zero]
  rcases he with rfl | rfl
  · rw [show (⟨0, 1 * -Py⟩ : ℂ) = ((-Py : ℝ) : ℂ) * Complex.I by apply Complex.ext <;> simp, Complex.arg_real_mul _ (by linarith), Complex.arg_I]; ring
  · rw [show (⟨0, -1 * -Py⟩ : ℂ) = ((-Py : ℝ) : ℂ) * -Complex.I by apply Complex.ext <;> simp, Complex.arg_real_mul _ (by linarith), Complex.arg_neg_I]; ring

/-- **C68, the verification.** For every pose to the side of an arm without offset d_3, none of the matrices that the script computes for comparison is the
matrix of the pose: already the position differs, because of `deg`. -/
theorem C68_verify_violation (p : PumaPar) (hd3 : p.d_3 = 0) (T : M4) (hx : T 0 3 = 0) (hy : T 1 3 < 0) (rows : List (List ℝ))
    (h : pumaRows p T = .ok rows) (M : M4) (hM : M ∈ verify p rows) : pos M ≠ pos T := by
  obtain ⟨row, hr, rfl⟩ := List.mem_map.1 hM
  obtain ⟨e1, e3, σ, he, -, -, k⟩ := row_of h hr
  obtain ⟨q1, q23, q2, q3, q4, q5, q6, rfl, -, h1, -⟩ := k
  rw [hx, hd3, side_th1 hy he] at h1
  have hpi := Real.pi_gt_d6
  have hpi' := Real.pi_pos
  have e : toDegrees q1 * degC = e1 * (6.28317531 / 4) := by
    rw [toDegrees, if_neg, degC, h1]
    · field_simp; ring
    · rw [h1]; rcases he with rfl | rfl <;> linarith
  have hc : 0 < cos (toDegrees q1 * degC) := by
    rw [e]
    have : cos (e1 * (6.28317531 / 4)) = cos (6.28317531 / 4) := by
      rcases he with rfl | rfl
      · rw [one_mul]
      · rw [neg_one_mul, cos_neg]
    rw [this]
    apply cos_pos_of_mem_Ioo
    constructor <;> norm_num at hpi ⊢ <;> linarith
  intro heq
  rw [pumaFK_eq, pumaMat_eq, pos_mk4] at heq
  have x := congrFun heq 0
  have y := congrFun heq 1
  simp [armPos, jointsOf, hd3] at x y
  change _ = T 0 3 at x
  change _ = T 1 3 at y
  rw [hx] at x
  rcases mul_eq_zero.1 x with x | x
  · linarith
  · rw [x, mul_zero] at y; linarith

/-! ## Example -/

/-- an arm without offsets -/
def demoPuma : PumaPar := ⟨0, 1, 0, 0, 1⟩
/-- a pose to its side -/
def sidePose : M4 := mk4 !![0, 0, 1; 1, 0, 0; 0, 1, 0] ![0, -1, 1]

theorem sidePose_rigid : IsRigid sidePose := by
  apply rigid_mk4
  refine ⟨?_, ?_, ?_⟩
  · ext i j; fin_cases i <;> fin_cases j <;> simp [Matrix.mul_apply, Fin.sum_univ_three]
  · ext i j; fin_cases i <;> fin_cases j <;> simp [Matrix.mul_apply, Fin.sum_univ_three]
  · simp [Matrix.det_fin_three]

/-- The script computes rows for this pose. -/
theorem sidePose_rows : ∃ rows, pumaRows demoPuma sidePose = .ok rows := by
  have e : sidePose 0 3 = 0 ∧ sidePose 1 3 = -1 ∧ sidePose 2 3 = 1 ∧ sidePose 0 2 = 1 ∧ sidePose 1 2 = 0 := by simp [sidePose, mk4]
  obtain ⟨e1, e2, e3, e4, e5⟩ := e
  rw [C68_returns, e1, e2, e3, e4, e5]
  refine ⟨by norm_num [demoPuma], ?_⟩
  intro e1 q1 he hq
  have hq' : q1 = e1 * (π / 2) := by
    rw [← side_th1 (Py := -1) (by norm_num) he]; exact hq
  have hs : cos q1 = 0 ∧ sin q1 = e1 := by
    rw [hq']
    rcases he with rfl | rfl
    · simp
    · simp [neg_div]
  rw [hs.1, hs.2]
  have he2 : e1 ^ 2 = 1 := by rcases he with rfl | rfl <;> norm_num
  refine ⟨?_, ?_⟩
  · norm_num [demoPuma]
    rw [he2]; norm_num
  · rcases he with rfl | rfl <;> norm_num

example : ∃ rows row, pumaRows demoPuma sidePose = .ok rows ∧ row ∈ rows ∧ pumaFK demoPuma (jointsOf row) ≠ sidePose ∧
    pumaFK demoPuma (turned (jointsOf row)) = sidePose ∧ ∀ M ∈ verify demoPuma rows, M ≠ sidePose := by
  obtain ⟨rows, h⟩ := sidePose_rows
  obtain ⟨row, hr, -⟩ := row_for h (.inl rfl) (.inl rfl) (.inl rfl)
  refine ⟨rows, row, h, hr, fun he => C68_rows_violation _ _ _ h _ hr (by rw [he]), ?_, fun M hM he => ?_⟩
  · rw [C68_turned demoPuma sidePose sidePose_rigid rows h row hr]
    simp [raise, sidePose, demoPuma, mk4, rot]
  · exact C68_verify_violation demoPuma rfl sidePose (by simp [sidePose, mk4]) (by simp [sidePose, mk4]) rows h M hM (by rw [he])

/-- **C68, the whole script.** If the script ends, it has computed the pose of the joint vector and eight poses, one for each of its rows, in their
order: the pose of the arm at the row's angles, converted to degrees and back. -/
theorem C68_checker_rows (p : PumaPar) (q : Fin 6 → ℝ) (T : M4) (Ms : List M4) (h : checker p q = .ok (T, Ms)) :
    T = pumaFK p q ∧ Ms.length = 8 ∧ ∃ rows, pumaRows p T = .ok rows ∧ rows.length = 8 ∧ ∀ (i : Nat) row, rows[i]? = some row →
      Ms[i]? = some (pumaFK p fun j => toDegrees (jointsOf row j) * degC) := by
  unfold checker at h
  simp only [bind, Except.bind] at h
  split at h
  · cases h
  · rename_i rows hrows
    cases h
    obtain ⟨r1, r2, r3, r4, r5, r6, r7, r8, hr, -⟩ := pumaRows_rows hrows
    have hl : rows.length = 8 := by rw [hr]; rfl
    refine ⟨rfl, by rw [verify, List.length_map, hl], rows, hrows, hl, fun i row hi => ?_⟩
    have h0 : toDegrees 0 = 0 := by rw [toDegrees, if_neg (by have := Real.pi_pos; linarith), zero_mul]
    have hd : ∀ k : Nat, (row.map fun x => toDegrees x * degC).getD k 0 = toDegrees (row.getD k 0) * degC := by
      intro k
      simp only [List.getD_eq_getElem?_getD, List.getElem?_map]
      cases row[k]? <;> simp [h0]
    rw [verify, List.getElem?_map, hi, Option.map_some]
    congr 2
    funext j
    fin_cases j <;> exact hd _

/-- **C68 violated, the whole script.** For every Puma without an offset d_3 and every joint vector whose hand is on the negative y axis: if the script
ends, none of the eight poses it computes is the pose it started from. -/
theorem C68_script_violation (p : PumaPar) (hd3 : p.d_3 = 0) (q : Fin 6 → ℝ) (hx : pumaFK p q 0 3 = 0) (hy : pumaFK p q 1 3 < 0)
    (T : M4) (Ms : List M4) (h : checker p q = .ok (T, Ms)) : T = pumaFK p q ∧ Ms.length = 8 ∧ ∀ M ∈ Ms, M ≠ T := by
  obtain ⟨h1, h2, rows, h3, h4, h5⟩ := C68_checker_rows p q T Ms h
  refine ⟨h1, h2, fun M hM he => ?_⟩
  have hMs : Ms = verify p rows := by
    unfold checker at h
    rw [← h1] at h
    simp only [h3] at h
    cases h; rfl
  rw [hMs] at hM
  exact C68_verify_violation p hd3 T (by rw [h1]; exact hx) (by rw [h1]; exact hy) rows h3 M hM (by rw [he])

/-- a run of the script: the joint vector is one that reaches `sidePose` -/
example : ∃ q Ms, checker demoPuma q = .ok (sidePose, Ms) ∧ pumaFK demoPuma q 0 3 = 0 ∧ pumaFK demoPuma q 1 3 < 0 ∧ Ms.length = 8 ∧
    ∀ M ∈ Ms, M ≠ sidePose := by
  obtain ⟨rows, h⟩ := sidePose_rows
  obtain ⟨row, hr, -⟩ := row_for h (.inl rfl) (.inl rfl) (.inl rfl)
  have hq : pumaFK demoPuma (turned (jointsOf row)) = sidePose := by
    rw [C68_turned demoPuma sidePose sidePose_rigid rows h row hr]
    simp [raise, sidePose, demoPuma, mk4, rot]
  have hc : checker demoPuma (turned (jointsOf row)) = .ok (sidePose, verify demoPuma rows) := by
    unfold checker; rw [hq]; simp only [h]; rfl
  have hx : pumaFK demoPuma (turned (jointsOf row)) 0 3 = 0 := by rw [hq]; simp [sidePose, mk4]
  have hy : pumaFK demoPuma (turned (jointsOf row)) 1 3 < 0 := by rw [hq]; simp [sidePose, mk4]
  exact ⟨_, _, hc, hx, hy, (C68_script_violation _ rfl _ hx hy _ _ hc).2⟩

/-- The hypotheses of `C68_all` hold for it: there is a joint vector that reaches the pose, and every one is among the rows. -/
example : ∃ rows, pumaRows demoPuma sidePose = .ok rows ∧ (∃ q, pumaFK demoPuma q = raise sidePose demoPuma.d_1) ∧
    ∀ q, pumaFK demoPuma q = raise sidePose demoPuma.d_1 → ∃ row ∈ rows, ∀ i, SameAngle (q i) (turned (jointsOf row) i) := by
  obtain ⟨rows, h⟩ := sidePose_rows
  obtain ⟨row, hr, -⟩ := row_for h (.inl rfl) (.inl rfl) (.inl rfl)
  refine ⟨rows, h, ⟨_, C68_turned demoPuma sidePose sidePose_rigid rows h row hr⟩, fun q hq => ?_⟩
  exact C68_all demoPuma sidePose rows h (.inr (by simp [sidePose, mk4])) (by simp [demoPuma]) (.inr (by simp [demoPuma]))
    (by simp [sidePose, mk4, demoPuma]) q hq

/-- The dictionaries of the script (solChecker.py:22-27), with degrees as whole numbers. -/
example : fkN { plainOps with nice := fun _ => true } (t06S { plainOps with nice := fun _ => true } pumaDH)
    [("th_1", .expr (.num 30)), ("th_2", .expr (.num 50)), ("th_3", .expr (.num 40)), ("th_4", .expr (.num 45)), ("th_5", .expr (.num 120)),
      ("th_6", .expr (.num 60)), ("th_23", .expr (.num 90))]
    [("a_2", .expr (.num 5)), ("a_3", .expr (.num 1)), ("d_3", .expr (.num 2)), ("d_4", .expr (.num 4))] = .error .exit := by
  apply C68_missing_violation
  · exact ⟨good_plainOps.simp_eval, good_plainOps.simp_has, good_plainOps.sub_eval, good_plainOps.sub_has⟩
  · intro i; rfl
  · simp [IsDict]
  · simp [closed, Expr.has]
  · simp
  · simp

end Verif.Kin
