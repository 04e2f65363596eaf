import Verif.Kin.Puma
import Verif.Kin.NumericProps
import Verif.Leaf.Math
import Mathlib.Analysis.Real.Pi.Bounds
import Mathlib.LinearAlgebra.Matrix.Adjugate
/-!
# Lemmas for C68: the eight Puma solutions of the checker script
-/
set_option linter.unusedSimpArgs false
namespace Verif.Kin
open Matrix Verif.Sym Verif.Leaf Real

/-! ## Trigonometry -/

theorem polar (y x : ℝ) : √(x ^ 2 + y ^ 2) * cos (atan2 y x) = x ∧ √(x ^ 2 + y ^ 2) * sin (atan2 y x) = y := by
  by_cases h : x ^ 2 + y ^ 2 = 0
  · have hx : x = 0 := by nlinarith [sq_nonneg x, sq_nonneg y]
    have hy : y = 0 := by nlinarith [sq_nonneg x, sq_nonneg y]
    subst hx hy; simp
  · have hp : 0 < x ^ 2 + y ^ 2 := lt_of_le_of_ne (by positivity) (Ne.symm h)
    have hr := Real.sqrt_pos.2 hp
    obtain ⟨a, b⟩ := atan2_polar hr (y := y) (x := x) (by rw [Real.sq_sqrt hp.le])
    rw [a, b]
    constructor <;> field_simp

/-- the solution of `A cos θ + B sin θ = C`, also in the degenerate cases -/
theorem sincos_sol {A B C y : ℝ} (h : y ^ 2 = A ^ 2 + B ^ 2 - C ^ 2) :
    A * cos (atan2 B A + atan2 y C) + B * sin (atan2 B A + atan2 y C) = C := by
  obtain ⟨h1, h2⟩ := polar B A
  obtain ⟨h3, h4⟩ := polar y C
  have e : √(C ^ 2 + y ^ 2) = √(A ^ 2 + B ^ 2) := by rw [h]; congr 1; ring
  rw [e] at h3
  rw [Real.cos_add, Real.sin_add]
  have g := Real.sin_sq_add_cos_sq (atan2 B A)
  generalize √(A ^ 2 + B ^ 2) = r at *
  generalize cos (atan2 B A) = a at *
  generalize sin (atan2 B A) = b at *
  generalize cos (atan2 y C) = c at *
  generalize sin (atan2 y C) = d at *
  subst h1 h2
  linear_combination r * c * g + h3

/-- the joint angle th_23 turns the vector (m, n) into (X, Z) -/
theorem turn_sol {m n X Z : ℝ} (h : m ^ 2 + n ^ 2 = X ^ 2 + Z ^ 2) :
    cos (atan2 (X * n - Z * m) (X * m + Z * n)) * m + sin (atan2 (X * n - Z * m) (X * m + Z * n)) * n = X ∧
    cos (atan2 (X * n - Z * m) (X * m + Z * n)) * n - sin (atan2 (X * n - Z * m) (X * m + Z * n)) * m = Z := by
  obtain ⟨h1, h2⟩ := polar (X * n - Z * m) (X * m + Z * n)
  have e : √((X * m + Z * n) ^ 2 + (X * n - Z * m) ^ 2) = X ^ 2 + Z ^ 2 := by
    rw [show (X * m + Z * n) ^ 2 + (X * n - Z * m) ^ 2 = (X ^ 2 + Z ^ 2) ^ 2 by linear_combination (X ^ 2 + Z ^ 2) * h]
    exact Real.sqrt_sq (by positivity)
  rw [e] at h1 h2
  by_cases h0 : X ^ 2 + Z ^ 2 = 0
  · rw [h0] at h
    have hX : X = 0 := by nlinarith [sq_nonneg X, sq_nonneg Z]
    have hZ : Z = 0 := by nlinarith [sq_nonneg X, sq_nonneg Z]
    have hm : m = 0 := by nlinarith [sq_nonneg m, sq_nonneg n]
    have hn : n = 0 := by nlinarith [sq_nonneg m, sq_nonneg n]
    subst hX hZ hm hn; simp
  · constructor <;> apply mul_left_cancel₀ h0
    · linear_combination m * h1 + n * h2 + X * h
    · linear_combination n * h1 - m * h2 + Z * h

/-! ## The forward kinematics of the Puma -/

/-- The pose of the Puma in terms of the sines and cosines, with th_23 = th_2 + th_3. -/
def pumaMat (p : PumaPar) (c1 s1 c2 s2 c23 s23 c4 s4 c5 s5 c6 s6 : ℝ) : M4 :=
  let u := c4 * c5 * c6 - s4 * s6
  let v := -c4 * c5 * s6 - s4 * c6
  let w := s4 * c5 * c6 + c4 * s6
  let z := c4 * c6 - s4 * c5 * s6
  let X := p.a_2 * c2 + p.a_3 * c23 - p.d_4 * s23
  !![c1 * (c23 * u + s23 * s5 * c6) + s1 * w, c1 * (c23 * v - s23 * s5 * s6) + s1 * z, c1 * (c23 * c4 * s5 - s23 * c5) + s1 * s4 * s5, c1 * X - s1 * p.d_3;
     s1 * (c23 * u + s23 * s5 * c6) - c1 * w, s1 * (c23 * v - s23 * s5 * s6) - c1 * z, s1 * (c23 * c4 * s5 - s23 * c5) - c1 * s4 * s5, s1 * X + c1 * p.d_3;
     -s23 * u + c23 * s5 * c6, -s23 * v - c23 * s5 * s6, -s23 * c4 * s5 - c23 * c5, p.d_1 - p.a_2 * s2 - p.a_3 * s23 - p.d_4 * c23;
     0, 0, 0, 1]

theorem pumaPose_eq (env : String → ℝ) (hpi : env "pi" = π) : armPose env pumaDH =
    pumaMat ⟨env "d_1", env "a_2", env "a_3", env "d_3", env "d_4"⟩ (cos (env "th_1")) (sin (env "th_1")) (cos (env "th_2")) (sin (env "th_2"))
      (cos (env "th_2" + env "th_3")) (sin (env "th_2" + env "th_3")) (cos (env "th_4")) (sin (env "th_4")) (cos (env "th_5")) (sin (env "th_5"))
      (cos (env "th_6")) (sin (env "th_6")) := by
  have e1 : Expr.eval env minusHalfPi = -(π / 2) := by simp [minusHalfPi, Expr.eval, Fn1.eval, Fn2.eval, hpi]; ring
  have e2 : Expr.eval env halfPi = π / 2 := by simp [halfPi, Expr.eval, Fn2.eval, hpi]
  simp only [armPose, t06, pumaDH, Matrix.cons_val, e1, e2]
  simp only [Expr.eval, zero, linkN, cos_neg, sin_neg, cos_pi_div_two, sin_pi_div_two, cos_zero, sin_zero, Rat.cast_zero]
  simp
  rw [cos_add, sin_add]
  ext i j
  fin_cases i <;> fin_cases j <;> simp [pumaMat] <;> ring

theorem pumaFK_eq (p : PumaPar) (q : Fin 6 → ℝ) : pumaFK p q =
    pumaMat p (cos (q 0)) (sin (q 0)) (cos (q 1)) (sin (q 1)) (cos (q 1 + q 2)) (sin (q 1 + q 2)) (cos (q 3)) (sin (q 3)) (cos (q 4)) (sin (q 4))
      (cos (q 5)) (sin (q 5)) := pumaPose_eq (pumaEnv p q) rfl

/-- the rotation of the first three links -/
def armRot (c1 s1 c23 s23 : ℝ) : M3 := !![c1 * c23, -c1 * s23, -s1; s1 * c23, -s1 * s23, c1; -s23, -c23, 0]

/-- the rotation of the wrist -/
def wristRot (c4 s4 c5 s5 c6 s6 : ℝ) : M3 :=
  !![c4 * c5 * c6 - s4 * s6, -c4 * c5 * s6 - s4 * c6, c4 * s5; -s5 * c6, s5 * s6, c5; -s4 * c5 * c6 - c4 * s6, s4 * c5 * s6 - c4 * c6, -s4 * s5]

/-- the wrist centre -/
def armPos (p : PumaPar) (c1 s1 c2 s2 c23 s23 : ℝ) : V3 :=
  ![c1 * (p.a_2 * c2 + p.a_3 * c23 - p.d_4 * s23) - s1 * p.d_3, s1 * (p.a_2 * c2 + p.a_3 * c23 - p.d_4 * s23) + c1 * p.d_3,
    p.d_1 - p.a_2 * s2 - p.a_3 * s23 - p.d_4 * c23]

theorem pumaMat_eq (p : PumaPar) (c1 s1 c2 s2 c23 s23 c4 s4 c5 s5 c6 s6 : ℝ) :
    pumaMat p c1 s1 c2 s2 c23 s23 c4 s4 c5 s5 c6 s6 =
      mk4 (armRot c1 s1 c23 s23 * wristRot c4 s4 c5 s5 c6 s6) (armPos p c1 s1 c2 s2 c23 s23) := by
  ext i j
  fin_cases i <;> fin_cases j <;> simp [pumaMat, mk4, armRot, wristRot, armPos, Matrix.mul_apply, Fin.sum_univ_three] <;> ring

theorem armRot_rotation (a b : ℝ) : IsRotation (armRot (cos a) (sin a) (cos b) (sin b)) := by
  have ha := sin_sq_add_cos_sq a
  have hb := sin_sq_add_cos_sq b
  refine ⟨?_, ?_, ?_⟩
  · ext i j
    fin_cases i <;> fin_cases j <;> simp [armRot, Matrix.mul_apply, Fin.sum_univ_three]
    · linear_combination cos b ^ 2 * ha + hb
    · linear_combination -sin b * cos b * ha
    · ring
    · linear_combination -sin b * cos b * ha
    · linear_combination sin b ^ 2 * ha + hb
    · ring
    · ring
    · ring
    · linear_combination ha
  · ext i j
    fin_cases i <;> fin_cases j <;> simp [armRot, Matrix.mul_apply, Fin.sum_univ_three]
    · linear_combination cos a ^ 2 * hb + ha
    · linear_combination sin a * cos a * hb
    · ring
    · linear_combination sin a * cos a * hb
    · linear_combination sin a ^ 2 * hb + ha
    · ring
    · ring
    · ring
    · linear_combination hb
  · rw [Matrix.det_fin_three]
    simp [armRot]
    linear_combination (sin a ^ 2 + cos a ^ 2) * hb + ha

/-- what a rotation gives for its elements -/
theorem rotation_elements {Q : M3} (h : IsRotation Q) :
    Q 0 2 ^ 2 + Q 1 2 ^ 2 + Q 2 2 ^ 2 = 1 ∧ Q 1 0 ^ 2 + Q 1 1 ^ 2 + Q 1 2 ^ 2 = 1 ∧
    Q 0 0 * Q 0 2 + Q 1 0 * Q 1 2 + Q 2 0 * Q 2 2 = 0 ∧ Q 0 1 * Q 0 2 + Q 1 1 * Q 1 2 + Q 2 1 * Q 2 2 = 0 ∧
    Q 1 1 = Q 0 0 * Q 2 2 - Q 0 2 * Q 2 0 ∧ Q 1 0 = Q 0 2 * Q 2 1 - Q 0 1 * Q 2 2 := by
  obtain ⟨h1, h2, h3⟩ := h
  have had : adjugate Q = Qᵀ := by
    have := Matrix.mul_adjugate Q
    rw [h3, one_smul] at this
    calc adjugate Q = (Qᵀ * Q) * adjugate Q := by rw [h1, one_mul]
      _ = Qᵀ := by rw [Matrix.mul_assoc, this, mul_one]
  rw [Matrix.adjugate_fin_three] at had
  have e (i j) := congrFun (congrFun h1 i) j
  have f (i j) := congrFun (congrFun h2 i) j
  have g (i j) := congrFun (congrFun had i) j
  have e22 := e 2 2
  have f11 := f 1 1
  have e02 := e 0 2
  have e12 := e 1 2
  have g11 := g 1 1
  have g01 := g 0 1
  simp [Matrix.mul_apply, Fin.sum_univ_three] at e22 f11 e02 e12 g11 g01
  refine ⟨by linarith [e22], by linarith [f11], by linarith, by linarith, by linarith, by linarith⟩

/-- The angles of the wrist: the formulas of the script, with the sign of th_5 changed. -/
theorem wrist_sol {Q : M3} (hQ : IsRotation Q) {σ : ℝ} (hσ : σ = 1 ∨ σ = -1) {q4 q5 q6 : ℝ} (h4 : q4 = atan2 (σ * Q 2 2) (-σ * Q 0 2))
    (hs4 : sin q4 ≠ 0) (h5 : q5 = atan2 (Q 2 2 / sin q4) (Q 1 2)) (hs5 : sin q5 ≠ 0) (h6 : q6 = atan2 (-Q 1 1 / sin q5) (Q 1 0 / sin q5)) :
    Q = wristRot (cos q4) (sin q4) (cos q5) (-sin q5) (cos q6) (sin q6) := by
  obtain ⟨k1, k2, k3, k4, k5, k6⟩ := rotation_elements hQ
  have hσ2 : σ ^ 2 = 1 := by rcases hσ with rfl | rfl <;> norm_num
  obtain ⟨p1, p2⟩ := polar (σ * Q 2 2) (-σ * Q 0 2)
  rw [← h4] at p1 p2
  rw [show (-σ * Q 0 2) ^ 2 + (σ * Q 2 2) ^ 2 = Q 0 2 ^ 2 + Q 2 2 ^ 2 by linear_combination (Q 0 2 ^ 2 + Q 2 2 ^ 2) * hσ2] at p1 p2
  have hρ : √(Q 0 2 ^ 2 + Q 2 2 ^ 2) ^ 2 = Q 0 2 ^ 2 + Q 2 2 ^ 2 := Real.sq_sqrt (by positivity)
  generalize √(Q 0 2 ^ 2 + Q 2 2 ^ 2) = ρ at p1 p2 hρ
  have d5 : Q 2 2 / sin q4 = σ * ρ := by
    rw [div_eq_iff hs4]; linear_combination -σ * p2 - Q 2 2 * hσ2
  rw [d5] at h5
  obtain ⟨a, b⟩ := atan2_polar one_pos (y := σ * ρ) (x := Q 1 2) (by linear_combination k1 + hρ + ρ ^ 2 * hσ2)
  rw [← h5, div_one] at a b
  have hρ0 : ρ ≠ 0 := by rintro rfl; rw [mul_zero] at a; exact hs5 a
  have hρ1 : ρ ^ 2 = Q 1 0 ^ 2 + Q 1 1 ^ 2 := by linear_combination hρ + k1 - k2
  obtain ⟨c, d⟩ := atan2_polar one_pos (y := -Q 1 1 / sin q5) (x := Q 1 0 / sin q5) (by
    rw [a]; field_simp; rw [hσ2, hρ1]; ring)
  rw [← h6, div_one] at c d
  have x4 : sin q4 * sin q5 = Q 2 2 := by rw [a]; linear_combination σ * p2 + Q 2 2 * hσ2
  have y4 : cos q4 * sin q5 = -Q 0 2 := by rw [a]; linear_combination σ * p1 - Q 0 2 * hσ2
  have x6 : sin q5 * cos q6 = Q 1 0 := by rw [d]; field_simp
  have y6 : sin q5 * sin q6 = -Q 1 1 := by rw [c]; field_simp
  have z : sin q5 ^ 2 = Q 0 2 ^ 2 + Q 2 2 ^ 2 := by rw [a]; linear_combination hρ + ρ ^ 2 * hσ2
  have z0 : sin q5 ^ 2 ≠ 0 := pow_ne_zero 2 hs5
  generalize sin q4 = s4 at *
  generalize cos q4 = c4 at *
  generalize sin q5 = s5 at *
  generalize cos q5 = c5 at *
  generalize sin q6 = s6 at *
  generalize cos q6 = c6 at *
  ext i j
  fin_cases i <;> fin_cases j <;> simp [wristRot]
  · apply mul_left_cancel₀ z0
    rw [show s5 ^ 2 * (c4 * c5 * c6 - s4 * s6) = (c4 * s5) * (s5 * c6) * c5 - (s4 * s5) * (s5 * s6) by ring, x4, y4, x6, y6, b, z]
    linear_combination Q 0 2 * k3 - Q 2 2 * k5
  · apply mul_left_cancel₀ z0
    rw [show s5 ^ 2 * (-(c4 * c5 * s6) - s4 * c6) = -(c4 * s5) * (s5 * s6) * c5 - (s4 * s5) * (s5 * c6) by ring, x4, y4, x6, y6, b, z]
    linear_combination Q 0 2 * k4 + Q 2 2 * k6
  · linarith
  · linarith
  · linarith
  · linarith
  · apply mul_left_cancel₀ z0
    rw [show s5 ^ 2 * (-(s4 * c5 * c6) - c4 * s6) = -(s4 * s5) * (s5 * c6) * c5 - (c4 * s5) * (s5 * s6) by ring, x4, y4, x6, y6, b, z]
    linear_combination Q 2 2 * k3 + Q 0 2 * k5
  · apply mul_left_cancel₀ z0
    rw [show s5 ^ 2 * (s4 * c5 * s6 - c4 * c6) = (s4 * s5) * (s5 * s6) * c5 - (c4 * s5) * (s5 * c6) by ring, x4, y4, x6, y6, b, z]
    linear_combination Q 2 2 * k4 - Q 0 2 * k6
  · linarith

/-! ## The rows -/

theorem bindE {ε α β : Type} {x : Except ε α} {f : α → Except ε β} {b : β} : (x >>= f) = .ok b ↔ ∃ a, x = .ok a ∧ f a = .ok b := by
  cases x with
  | error e => simp [bind, Except.bind]
  | ok a => simp [bind, Except.bind]

theorem pureE {ε α : Type} {a b : α} : (pure a : Except ε α) = .ok b ↔ a = b := by simp [pure, Except.pure]

theorem pySqrt_ok {x y : ℝ} : pySqrt x = .ok y ↔ 0 ≤ x ∧ √x = y := by
  rw [pySqrt]; split
  · simp; intro h; linarith
  · simp; intro _; linarith

theorem pyDiv_ok {x y z : ℝ} : pyDiv x y = .ok z ↔ y ≠ 0 ∧ x / y = z := by
  rw [pyDiv]; split
  · simp_all
  · simp_all

/-- The formulas of the script for one row; `e1`, `e3`, `σ` are the signs that are chosen for th_1, th_3 and the wrist. -/
structure IsRow (p : PumaPar) (T : M4) (e1 e3 σ : ℝ) (row : List ℝ) : Prop where
  ex : ∃ q1 q23 q2 q3 q4 q5 q6, row = [q1, q23, q2, q3, q4, q5, q6] ∧
    0 ≤ T 0 3 ^ 2 + T 1 3 ^ 2 - p.d_3 ^ 2 ∧
    q1 = atan2 (T 0 3) (-T 1 3) + atan2 (e1 * √(T 0 3 ^ 2 + T 1 3 ^ 2 - p.d_3 ^ 2)) (-p.d_3) ∧
    0 ≤ 4 * p.a_2 ^ 2 * p.a_3 ^ 2 + 4 * p.a_2 ^ 2 * p.d_4 ^ 2 -
      (T 2 3 ^ 2 - p.a_2 ^ 2 - p.a_3 ^ 2 - p.d_4 ^ 2 + (T 0 3 * cos q1 + T 1 3 * sin q1) ^ 2) ^ 2 ∧
    q3 = atan2 (-2 * p.a_2 * p.d_4) (2 * p.a_2 * p.a_3) + atan2 (e3 * √(4 * p.a_2 ^ 2 * p.a_3 ^ 2 + 4 * p.a_2 ^ 2 * p.d_4 ^ 2 -
      (T 2 3 ^ 2 - p.a_2 ^ 2 - p.a_3 ^ 2 - p.d_4 ^ 2 + (T 0 3 * cos q1 + T 1 3 * sin q1) ^ 2) ^ 2))
      (T 2 3 ^ 2 - p.a_2 ^ 2 - p.a_3 ^ 2 - p.d_4 ^ 2 + (T 0 3 * cos q1 + T 1 3 * sin q1) ^ 2) ∧
    q23 = atan2 (T 2 3 * (-p.a_2 * cos q3 - p.a_3) - (-T 0 3 * cos q1 - T 1 3 * sin q1) * (p.a_2 * sin q3 - p.d_4))
      (T 2 3 * (p.a_2 * sin q3 - p.d_4) + (-T 0 3 * cos q1 - T 1 3 * sin q1) * (-p.a_2 * cos q3 - p.a_3)) ∧
    q2 = q23 - q3 ∧
    q4 = atan2 (σ * (-T 0 2 * sin q1 + T 1 2 * cos q1)) (σ * (-T 0 2 * cos q1 * cos q23 - T 1 2 * sin q1 * cos q23 + T 2 2 * sin q23)) ∧
    sin q4 ≠ 0 ∧
    q5 = atan2 ((-T 0 2 * sin q1 + T 1 2 * cos q1) / sin q4) (-T 0 2 * sin q23 * cos q1 - T 1 2 * sin q1 * sin q23 - T 2 2 * cos q23) ∧
    sin q5 ≠ 0 ∧
    q6 = atan2 (-(-T 0 1 * sin q23 * cos q1 - T 1 1 * sin q1 * sin q23 - T 2 1 * cos q23) / sin q5)
      ((-T 0 0 * sin q23 * cos q1 - T 1 0 * sin q1 * sin q23 - T 2 0 * cos q23) / sin q5)

theorem pumaRows_rows {p : PumaPar} {T : M4} {rows : List (List ℝ)} (h : pumaRows p T = .ok rows) :
    ∃ r1 r2 r3 r4 r5 r6 r7 r8, rows = [r1, r2, r3, r4, r5, r6, r7, r8] ∧
      IsRow p T (-1) (-1) (-1) r1 ∧ IsRow p T 1 1 (-1) r2 ∧ IsRow p T 1 (-1) 1 r3 ∧ IsRow p T (-1) 1 1 r4 ∧
      IsRow p T (-1) (-1) 1 r5 ∧ IsRow p T 1 (-1) (-1) r6 ∧ IsRow p T 1 1 1 r7 ∧ IsRow p T (-1) 1 (-1) r8 := by
  simp only [pumaRows, bindE, pureE, pySqrt_ok, pyDiv_ok] at h
  obtain ⟨y0, ⟨g0, h0⟩, h⟩ := h
  obtain ⟨t1s1, e1s1, h⟩ := h
  obtain ⟨y1, ⟨g1, h1⟩, h⟩ := h
  obtain ⟨t1s2, e1s2, h⟩ := h
  obtain ⟨y2, ⟨g2, h2⟩, h⟩ := h
  obtain ⟨t3s3, e3s3, h⟩ := h
  obtain ⟨y3, ⟨g3, h3⟩, h⟩ := h
  obtain ⟨t3s2, e3s2, h⟩ := h
  obtain ⟨y4, ⟨g4, h4⟩, h⟩ := h
  obtain ⟨t3s1, e3s1, h⟩ := h
  obtain ⟨y5, ⟨g5, h5⟩, h⟩ := h
  obtain ⟨t3s4, e3s4, h⟩ := h
  obtain ⟨t23s2, e23s2, h⟩ := h
  obtain ⟨t23s4, e23s4, h⟩ := h
  obtain ⟨t23s1, e23s1, h⟩ := h
  obtain ⟨t23s3, e23s3, h⟩ := h
  obtain ⟨t2s2, e2s2, h⟩ := h
  obtain ⟨t2s4, e2s4, h⟩ := h
  obtain ⟨t2s1, e2s1, h⟩ := h
  obtain ⟨t2s3, e2s3, h⟩ := h
  obtain ⟨t4s3, e4s3, h⟩ := h
  obtain ⟨t4s7, e4s7, h⟩ := h
  obtain ⟨t4s2, e4s2, h⟩ := h
  obtain ⟨t4s6, e4s6, h⟩ := h
  obtain ⟨t4s4, e4s4, h⟩ := h
  obtain ⟨t4s1, e4s1, h⟩ := h
  obtain ⟨t4s8, e4s8, h⟩ := h
  obtain ⟨t4s5, e4s5, h⟩ := h
  obtain ⟨y6, ⟨g6, h6⟩, h⟩ := h
  obtain ⟨t5s4, e5s4, h⟩ := h
  obtain ⟨y7, ⟨g7, h7⟩, h⟩ := h
  obtain ⟨t5s8, e5s8, h⟩ := h
  obtain ⟨y8, ⟨g8, h8⟩, h⟩ := h
  obtain ⟨t5s1, e5s1, h⟩ := h
  obtain ⟨y9, ⟨g9, h9⟩, h⟩ := h
  obtain ⟨t5s2, e5s2, h⟩ := h
  obtain ⟨y10, ⟨g10, h10⟩, h⟩ := h
  obtain ⟨t5s6, e5s6, h⟩ := h
  obtain ⟨y11, ⟨g11, h11⟩, h⟩ := h
  obtain ⟨t5s3, e5s3, h⟩ := h
  obtain ⟨y12, ⟨g12, h12⟩, h⟩ := h
  obtain ⟨t5s7, e5s7, h⟩ := h
  obtain ⟨y13, ⟨g13, h13⟩, h⟩ := h
  obtain ⟨t5s5, e5s5, h⟩ := h
  obtain ⟨y14, ⟨g14, h14⟩, h⟩ := h
  obtain ⟨y15, ⟨g15, h15⟩, h⟩ := h
  obtain ⟨t6s6, e6s6, h⟩ := h
  obtain ⟨y16, ⟨g16, h16⟩, h⟩ := h
  obtain ⟨y17, ⟨g17, h17⟩, h⟩ := h
  obtain ⟨t6s5, e6s5, h⟩ := h
  obtain ⟨y18, ⟨g18, h18⟩, h⟩ := h
  obtain ⟨y19, ⟨g19, h19⟩, h⟩ := h
  obtain ⟨t6s1, e6s1, h⟩ := h
  obtain ⟨y20, ⟨g20, h20⟩, h⟩ := h
  obtain ⟨y21, ⟨g21, h21⟩, h⟩ := h
  obtain ⟨t6s8, e6s8, h⟩ := h
  obtain ⟨y22, ⟨g22, h22⟩, h⟩ := h
  obtain ⟨y23, ⟨g23, h23⟩, h⟩ := h
  obtain ⟨t6s4, e6s4, h⟩ := h
  obtain ⟨y24, ⟨g24, h24⟩, h⟩ := h
  obtain ⟨y25, ⟨g25, h25⟩, h⟩ := h
  obtain ⟨t6s2, e6s2, h⟩ := h
  obtain ⟨y26, ⟨g26, h26⟩, h⟩ := h
  obtain ⟨y27, ⟨g27, h27⟩, h⟩ := h
  obtain ⟨t6s7, e6s7, h⟩ := h
  obtain ⟨y28, ⟨g28, h28⟩, h⟩ := h
  obtain ⟨y29, ⟨g29, h29⟩, h⟩ := h
  obtain ⟨t6s3, e6s3, h⟩ := h
  obtain rfl := h
  refine ⟨_, _, _, _, _, _, _, _, rfl, ?_, ?_, ?_, ?_, ?_, ?_, ?_, ?_⟩
  · exact ⟨⟨t1s2, t23s4, t2s2, t3s4, t4s3, t5s1, t6s3, rfl, g1, by rw [← e1s2, ← h1]; ring_nf, g5, by rw [← e3s4, ← h5]; ring_nf, by rw [← e23s4], e2s2.symm, by rw [← e4s3]; ring_nf, g8, by rw [← e5s1, ← h8], g28, by rw [← e6s3, ← h28, ← h29]⟩⟩
  · exact ⟨⟨t1s1, t23s3, t2s4, t3s1, t4s7, t5s2, t6s4, rfl, g0, by rw [← e1s1, ← h0]; ring_nf, g4, by rw [← e3s1, ← h4]; ring_nf, by rw [← e23s3], e2s4.symm, by rw [← e4s7]; ring_nf, g9, by rw [← e5s2, ← h9], g22, by rw [← e6s4, ← h22, ← h23]⟩⟩
  · exact ⟨⟨t1s1, t23s2, t2s1, t3s2, t4s2, t5s3, t6s6, rfl, g0, by rw [← e1s1, ← h0]; ring_nf, g3, by rw [← e3s2, ← h3]; ring_nf, by rw [← e23s2], e2s1.symm, by rw [← e4s2]; ring_nf, g11, by rw [← e5s3, ← h11], g14, by rw [← e6s6, ← h14, ← h15]⟩⟩
  · exact ⟨⟨t1s2, t23s1, t2s3, t3s3, t4s6, t5s4, t6s1, rfl, g1, by rw [← e1s2, ← h1]; ring_nf, g2, by rw [← e3s3, ← h2]; ring_nf, by rw [← e23s1], e2s3.symm, by rw [← e4s6]; ring_nf, g6, by rw [← e5s4, ← h6], g18, by rw [← e6s1, ← h18, ← h19]⟩⟩
  · exact ⟨⟨t1s2, t23s4, t2s2, t3s4, t4s4, t5s5, t6s8, rfl, g1, by rw [← e1s2, ← h1]; ring_nf, g5, by rw [← e3s4, ← h5]; ring_nf, by rw [← e23s4], e2s2.symm, by rw [← e4s4]; ring_nf, g13, by rw [← e5s5, ← h13], g20, by rw [← e6s8, ← h20, ← h21]⟩⟩
  · exact ⟨⟨t1s1, t23s2, t2s1, t3s2, t4s1, t5s6, t6s5, rfl, g0, by rw [← e1s1, ← h0]; ring_nf, g3, by rw [← e3s2, ← h3]; ring_nf, by rw [← e23s2], e2s1.symm, by rw [← e4s1]; ring_nf, g10, by rw [← e5s6, ← h10], g16, by rw [← e6s5, ← h16, ← h17]⟩⟩
  · exact ⟨⟨t1s1, t23s3, t2s4, t3s1, t4s8, t5s7, t6s7, rfl, g0, by rw [← e1s1, ← h0]; ring_nf, g4, by rw [← e3s1, ← h4]; ring_nf, by rw [← e23s3], e2s4.symm, by rw [← e4s8]; ring_nf, g12, by rw [← e5s7, ← h12], g26, by rw [← e6s7, ← h26, ← h27]⟩⟩
  · exact ⟨⟨t1s2, t23s1, t2s3, t3s3, t4s5, t5s8, t6s2, rfl, g1, by rw [← e1s2, ← h1]; ring_nf, g2, by rw [← e3s3, ← h2]; ring_nf, by rw [← e23s1], e2s3.symm, by rw [← e4s5]; ring_nf, g7, by rw [← e5s8, ← h7], g24, by rw [← e6s2, ← h24, ← h25]⟩⟩

/-! ## Positions -/

/-- the pose with its height changed -/
def raise (T : M4) (h : ℝ) : M4 := mk4 (rot T) ![T 0 3, T 1 3, T 2 3 + h]

/-- the equation for th_1, from the formula -/
theorem row_th1 {p : PumaPar} {T : M4} {e1 q1 : ℝ} (he : e1 = 1 ∨ e1 = -1) (h0 : 0 ≤ T 0 3 ^ 2 + T 1 3 ^ 2 - p.d_3 ^ 2)
    (h : q1 = atan2 (T 0 3) (-T 1 3) + atan2 (e1 * √(T 0 3 ^ 2 + T 1 3 ^ 2 - p.d_3 ^ 2)) (-p.d_3)) : -T 0 3 * sin q1 + T 1 3 * cos q1 = p.d_3 := by
  have he2 : e1 ^ 2 = 1 := by rcases he with rfl | rfl <;> norm_num
  have := sincos_sol (A := -T 1 3) (B := T 0 3) (C := -p.d_3) (y := e1 * √(T 0 3 ^ 2 + T 1 3 ^ 2 - p.d_3 ^ 2)) (by
    rw [mul_pow, he2, Real.sq_sqrt h0]; ring)
  rw [← h] at this
  linarith

theorem row_pos {p : PumaPar} {T : M4} {e1 e3 σ : ℝ} {row : List ℝ} (he1 : e1 = 1 ∨ e1 = -1) (he3 : e3 = 1 ∨ e3 = -1) (h : IsRow p T e1 e3 σ row) :
    armPos p (cos (jointsOf row 0)) (sin (jointsOf row 0)) (cos (jointsOf row 1)) (sin (jointsOf row 1))
      (cos (jointsOf row 1 + jointsOf row 2)) (sin (jointsOf row 1 + jointsOf row 2)) = ![T 0 3, T 1 3, T 2 3 + p.d_1] := by
  obtain ⟨q1, q23, q2, q3, q4, q5, q6, rfl, g1, h1, g3, h3, h23, h2, -⟩ := h
  have k1 := row_th1 he1 g1 h1
  have he2 : e3 ^ 2 = 1 := by rcases he3 with rfl | rfl <;> norm_num
  have k3 := sincos_sol (A := 2 * p.a_2 * p.a_3) (B := -2 * p.a_2 * p.d_4)
    (C := T 2 3 ^ 2 - p.a_2 ^ 2 - p.a_3 ^ 2 - p.d_4 ^ 2 + (T 0 3 * cos q1 + T 1 3 * sin q1) ^ 2)
    (y := e3 * √(4 * p.a_2 ^ 2 * p.a_3 ^ 2 + 4 * p.a_2 ^ 2 * p.d_4 ^ 2 -
      (T 2 3 ^ 2 - p.a_2 ^ 2 - p.a_3 ^ 2 - p.d_4 ^ 2 + (T 0 3 * cos q1 + T 1 3 * sin q1) ^ 2) ^ 2)) (by
    rw [mul_pow, he2, Real.sq_sqrt g3]; ring)
  rw [← h3] at k3
  obtain ⟨m1, m2⟩ := turn_sol (m := p.a_2 * cos q3 + p.a_3) (n := p.a_2 * sin q3 - p.d_4) (X := T 0 3 * cos q1 + T 1 3 * sin q1) (Z := T 2 3) (by
    linear_combination p.a_2 ^ 2 * sin_sq_add_cos_sq q3 + k3)
  rw [show atan2 ((T 0 3 * cos q1 + T 1 3 * sin q1) * (p.a_2 * sin q3 - p.d_4) - T 2 3 * (p.a_2 * cos q3 + p.a_3))
      ((T 0 3 * cos q1 + T 1 3 * sin q1) * (p.a_2 * cos q3 + p.a_3) + T 2 3 * (p.a_2 * sin q3 - p.d_4)) = q23 by rw [h23]; congr 1 <;> ring] at m1 m2
  have e23 : q2 + q3 = q23 := by rw [h2]; ring
  have c2 : cos q2 = cos q23 * cos q3 + sin q23 * sin q3 := by rw [h2, cos_sub]
  have s2 : sin q2 = sin q23 * cos q3 - cos q23 * sin q3 := by rw [h2, sin_sub]
  have hu := sin_sq_add_cos_sq q1
  ext i
  fin_cases i <;> simp [armPos, jointsOf, e23, c2, s2]
  · linear_combination cos q1 * m1 + T 0 3 * hu + sin q1 * k1
  · linear_combination sin q1 * m1 + T 1 3 * hu - cos q1 * k1
  · linear_combination m2

/-- the joint vector with the sign of th_5 changed -/
def turned (q : Fin 6 → ℝ) : Fin 6 → ℝ := ![q 0, q 1, q 2, q 3, -q 4, q 5]

theorem row_sol {p : PumaPar} {T : M4} (hT : IsRigid T) {e1 e3 σ : ℝ} {row : List ℝ} (he1 : e1 = 1 ∨ e1 = -1) (he3 : e3 = 1 ∨ e3 = -1)
    (hσ : σ = 1 ∨ σ = -1) (h : IsRow p T e1 e3 σ row) : pumaFK p (turned (jointsOf row)) = raise T p.d_1 := by
  have hp := row_pos he1 he3 h
  obtain ⟨q1, q23, q2, q3, q4, q5, q6, rfl, g1, h1, g3, h3, h23, h2, h4, g4, h5, g5, h6⟩ := h
  have hA := armRot_rotation q1 q23
  have e23 : q2 + q3 = q23 := by rw [h2]; ring
  have hQ := rot_one_mul (rot_transpose hA) hT.1
  have el : ∀ j, ((armRot (cos q1) (sin q1) (cos q23) (sin q23))ᵀ * rot T) 0 j =
        cos q23 * (cos q1 * rot T 0 j + sin q1 * rot T 1 j) - sin q23 * rot T 2 j ∧
      ((armRot (cos q1) (sin q1) (cos q23) (sin q23))ᵀ * rot T) 1 j =
        -sin q23 * (cos q1 * rot T 0 j + sin q1 * rot T 1 j) - cos q23 * rot T 2 j ∧
      ((armRot (cos q1) (sin q1) (cos q23) (sin q23))ᵀ * rot T) 2 j = -sin q1 * rot T 0 j + cos q1 * rot T 1 j := by
    intro j
    refine ⟨?_, ?_, ?_⟩ <;> simp [armRot, Matrix.mul_apply, Fin.sum_univ_three] <;> ring
  have r00 : rot T 0 0 = T 0 0 := rfl
  have r01 : rot T 0 1 = T 0 1 := rfl
  have r02 : rot T 0 2 = T 0 2 := rfl
  have r10 : rot T 1 0 = T 1 0 := rfl
  have r11 : rot T 1 1 = T 1 1 := rfl
  have r12 : rot T 1 2 = T 1 2 := rfl
  have r20 : rot T 2 0 = T 2 0 := rfl
  have r21 : rot T 2 1 = T 2 1 := rfl
  have r22 : rot T 2 2 = T 2 2 := rfl
  have hw := wrist_sol hQ hσ (q4 := q4) (q5 := q5) (q6 := q6)
    (by rw [(el 2).1, (el 2).2.2, h4]; congr 1 <;> simp only [r00, r01, r02, r10, r11, r12, r20, r21, r22] <;> ring) g4
    (by rw [(el 2).2.1, (el 2).2.2, h5]; congr 1 <;> simp only [r00, r01, r02, r10, r11, r12, r20, r21, r22] <;> ring) g5
    (by rw [(el 1).2.1, (el 0).2.1, h6]; congr 1 <;> simp only [r00, r01, r02, r10, r11, r12, r20, r21, r22] <;> ring)
  simp only [jointsOf, List.getD_cons_zero, List.getD_cons_succ, Matrix.cons_val, e23] at hp
  rw [pumaFK_eq, pumaMat_eq, raise]
  simp only [turned, jointsOf, List.getD_cons_zero, List.getD_cons_succ, Matrix.cons_val, cos_neg, sin_neg, e23]
  rw [hp, ← hw, ← Matrix.mul_assoc, hA.2.1, one_mul]

end Verif.Kin
