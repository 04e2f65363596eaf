import Verif.Sym.Eval
import Mathlib.Analysis.SpecialFunctions.Trigonometric.Angle
/-!
# The trigonometry behind the solver leaves (C34-C38, over ℝ)

The formulas are those of ikbtleaves/algebra_solver.py:229, sincos_solver.py:204-212 and 241-249, tan_solver.py:305-320,
sinANDcos_solver.py:196-203, two_eqn_m7.py:161-178. The leaves themselves are in `Verif.Leaf.Model`.
-/
namespace Verif.Leaf
open Verif.Sym Real

/-- Equal modulo 2π. -/
def SameAngle (x y : ℝ) : Prop := ∃ k : ℤ, x = y + k * (2 * π)

theorem sameAngle_iff {x y : ℝ} : SameAngle x y ↔ sin x = sin y ∧ cos x = cos y := by
  constructor
  · rintro ⟨k, rfl⟩; exact ⟨Real.sin_add_int_mul_two_pi y k, Real.cos_add_int_mul_two_pi y k⟩
  · rintro ⟨hs, hc⟩
    have h := Real.Angle.cos_sin_inj hc hs
    obtain ⟨k, hk⟩ := Real.Angle.angle_eq_iff_two_pi_dvd_sub.mp h
    exact ⟨k, by linarith⟩

theorem SameAngle.refl (x : ℝ) : SameAngle x x := ⟨0, by simp⟩
theorem SameAngle.symm {x y : ℝ} (h : SameAngle x y) : SameAngle y x := by
  rw [sameAngle_iff] at *; exact ⟨h.1.symm, h.2.symm⟩
theorem SameAngle.trans {x y z : ℝ} (h : SameAngle x y) (h' : SameAngle y z) : SameAngle x z := by
  rw [sameAngle_iff] at *; exact ⟨h.1.trans h'.1, h.2.trans h'.2⟩

/-- The defining property of atan2. -/
theorem atan2_polar {r : ℝ} (hr : 0 < r) {y x : ℝ} (h : x ^ 2 + y ^ 2 = r ^ 2) :
    sin (atan2 y x) = y / r ∧ cos (atan2 y x) = x / r := by
  have hn : ‖(⟨x, y⟩ : ℂ)‖ = r := by
    rw [Complex.norm_def, Complex.normSq_mk, show x * x + y * y = r ^ 2 by linarith [sq x, sq y], Real.sqrt_sq hr.le]
  have h0 : (⟨x, y⟩ : ℂ) ≠ 0 := by
    intro h0; rw [h0] at hn; simp at hn; exact hr.ne hn
  exact ⟨by rw [atan2, Complex.sin_arg, hn], by rw [atan2, Complex.cos_arg h0, hn]⟩

/-- x is the angle of (X, Y) up to a positive factor. -/
theorem sameAngle_atan2 {r x X Y : ℝ} (hr : 0 < r) (hY : Y = r * sin x) (hX : X = r * cos x) :
    SameAngle x (atan2 Y X) := by
  have h : X ^ 2 + Y ^ 2 = r ^ 2 := by
    rw [hX, hY]; linear_combination r ^ 2 * Real.sin_sq_add_cos_sq x
  obtain ⟨h1, h2⟩ := atan2_polar hr h
  rw [sameAngle_iff, h1, h2, hY, hX]
  exact ⟨by field_simp, by field_simp⟩

/-! ## linear -/

theorem lin_iff {A B l x : ℝ} (hA : A ≠ 0) : l = A * x + B ↔ x = (l - B) / A := by
  rw [eq_div_iff hA]; constructor <;> intro h <;> linarith

/-! ## arcsin and arccos -/

theorem asin_iff {A B l x : ℝ} (hA : A ≠ 0) (h1 : -1 ≤ (l - B) / A) (h2 : (l - B) / A ≤ 1) :
    l = A * sin x + B ↔ SameAngle x (arcsin ((l - B) / A)) ∨ SameAngle x (π - arcsin ((l - B) / A)) := by
  rw [lin_iff hA]
  set t := (l - B) / A
  have ht : sin (arcsin t) = t := Real.sin_arcsin h1 h2
  constructor
  · intro h
    have hs : sin x = sin (arcsin t) := by rw [ht, h]
    have hc2 : cos x ^ 2 = cos (arcsin t) ^ 2 := by
      have a := Real.sin_sq_add_cos_sq x
      have b := Real.sin_sq_add_cos_sq (arcsin t)
      rw [hs] at a; linarith
    rcases sq_eq_sq_iff_eq_or_eq_neg.mp hc2 with hc | hc
    · exact .inl (sameAngle_iff.mpr ⟨hs, hc⟩)
    · exact .inr (sameAngle_iff.mpr ⟨by rw [Real.sin_pi_sub]; exact hs, by rw [Real.cos_pi_sub]; exact hc⟩)
  · rintro (h | h)
    · rw [(sameAngle_iff.mp h).1, ht]
    · rw [(sameAngle_iff.mp h).1, Real.sin_pi_sub, ht]

theorem asin_none {A B l x : ℝ} (hA : A ≠ 0) (h : l = A * sin x + B) : -1 ≤ (l - B) / A ∧ (l - B) / A ≤ 1 := by
  rw [← (lin_iff hA).mp h]; exact ⟨Real.neg_one_le_sin x, Real.sin_le_one x⟩

theorem acos_iff {A B l x : ℝ} (hA : A ≠ 0) (h1 : -1 ≤ (l - B) / A) (h2 : (l - B) / A ≤ 1) :
    l = A * cos x + B ↔ SameAngle x (arccos ((l - B) / A)) ∨ SameAngle x (-arccos ((l - B) / A)) := by
  rw [lin_iff hA]
  set t := (l - B) / A
  have ht : cos (arccos t) = t := Real.cos_arccos h1 h2
  constructor
  · intro h
    have hc : cos x = cos (arccos t) := by rw [ht, h]
    have hs2 : sin x ^ 2 = sin (arccos t) ^ 2 := by
      have a := Real.sin_sq_add_cos_sq x
      have b := Real.sin_sq_add_cos_sq (arccos t)
      rw [hc] at a; linarith
    rcases sq_eq_sq_iff_eq_or_eq_neg.mp hs2 with hs | hs
    · exact .inl (sameAngle_iff.mpr ⟨hs, hc⟩)
    · exact .inr (sameAngle_iff.mpr ⟨by rw [Real.sin_neg]; exact hs, by rw [Real.cos_neg]; exact hc⟩)
  · rintro (h | h)
    · rw [(sameAngle_iff.mp h).2, ht]
    · rw [(sameAngle_iff.mp h).2, Real.cos_neg, ht]

theorem acos_none {A B l x : ℝ} (hA : A ≠ 0) (h : l = A * cos x + B) : -1 ≤ (l - B) / A ∧ (l - B) / A ≤ 1 := by
  rw [← (lin_iff hA).mp h]; exact ⟨Real.neg_one_le_cos x, Real.cos_le_one x⟩

/-! ## atan2 from a sine and a cosine equation -/

theorem tan_complete {A₁ A₂ X Y x : ℝ} (h1 : A₁ ≠ 0) (h2 : A₂ ≠ 0) (hs : A₁ * sin x = Y) (hc : A₂ * cos x = X) :
    SameAngle x (atan2 (Y / A₁) (X / A₂)) := by
  apply sameAngle_atan2 one_pos
  · rw [← hs]; field_simp
  · rw [← hc]; field_simp

theorem tan_sound {A₁ A₂ X Y x : ℝ} (h1 : A₁ ≠ 0) (h2 : A₂ ≠ 0) (h : (X / A₂) ^ 2 + (Y / A₁) ^ 2 = 1)
    (hx : SameAngle x (atan2 (Y / A₁) (X / A₂))) : A₁ * sin x = Y ∧ A₂ * cos x = X := by
  obtain ⟨hs, hc⟩ := sameAngle_iff.mp hx
  obtain ⟨a, b⟩ := atan2_polar one_pos (y := Y / A₁) (x := X / A₂) (by rw [h]; norm_num)
  rw [hs, hc, a, b]
  exact ⟨by field_simp, by field_simp⟩

theorem tan_pos {A₁ A₂ X Y x : ℝ} (h1 : A₁ ≠ 0) (h2 : 0 < A₂) (hs : A₁ * sin x = Y) (hc : A₂ * cos x = X) :
    SameAngle x (atan2 (Y / (A₁ / A₂)) X) := by
  apply sameAngle_atan2 h2
  · rw [← hs]; field_simp
  · exact hc.symm

theorem tan_neg {A₁ A₂ X Y x : ℝ} (h1 : A₁ ≠ 0) (h2 : A₂ < 0) (hs : A₁ * sin x = Y) (hc : A₂ * cos x = X) :
    SameAngle x (atan2 (-Y / (A₁ / A₂)) (-X)) := by
  apply sameAngle_atan2 (neg_pos.mpr h2)
  · have := h2.ne
    rw [← hs]; field_simp
  · rw [← hc]; ring

/-! ## A sin + B cos = C -/

theorem sincos_iff {A B C x : ℝ} (hr : 0 < A ^ 2 + B ^ 2) (hC : C ^ 2 ≤ A ^ 2 + B ^ 2) :
    A * sin x + B * cos x = C ↔
      SameAngle x (atan2 A B + atan2 (√(A ^ 2 + B ^ 2 - C ^ 2)) C) ∨
      SameAngle x (atan2 A B + atan2 (-√(A ^ 2 + B ^ 2 - C ^ 2)) C) := by
  obtain ⟨r, hr0, hr2⟩ : ∃ r, 0 < r ∧ r ^ 2 = A ^ 2 + B ^ 2 := ⟨√(A ^ 2 + B ^ 2), Real.sqrt_pos.mpr hr, Real.sq_sqrt hr.le⟩
  set t := √(A ^ 2 + B ^ 2 - C ^ 2)
  have ht : t ^ 2 = A ^ 2 + B ^ 2 - C ^ 2 := Real.sq_sqrt (by linarith)
  obtain ⟨p1, p2⟩ := atan2_polar hr0 (y := A) (x := B) (by rw [hr2]; ring)
  obtain ⟨q1, q2⟩ := atan2_polar hr0 (y := t) (x := C) (by rw [hr2, ht]; ring)
  obtain ⟨n1, n2⟩ := atan2_polar hr0 (y := -t) (x := C) (by rw [neg_sq, hr2, ht]; ring)
  have hrne := hr0.ne'
  constructor
  · intro h
    -- A sin x + B cos x = C, so (A cos x - B sin x)^2 = t^2
    have hsc := Real.sin_sq_add_cos_sq x
    have hd : (A * cos x - B * sin x) ^ 2 = t ^ 2 := by
      rw [ht, ← h]; linear_combination (A ^ 2 + B ^ 2) * hsc
    have es : r ^ 2 * sin x = A * (A * sin x + B * cos x) - B * (A * cos x - B * sin x) := by rw [hr2]; ring
    have ec : r ^ 2 * cos x = B * (A * sin x + B * cos x) + A * (A * cos x - B * sin x) := by rw [hr2]; ring
    rcases sq_eq_sq_iff_eq_or_eq_neg.mp hd with hd | hd
    · right
      rw [sameAngle_iff, Real.sin_add, Real.cos_add, p1, p2, n1, n2]
      rw [h, hd] at es ec
      constructor
      · field_simp; linarith
      · field_simp; linarith
    · left
      rw [sameAngle_iff, Real.sin_add, Real.cos_add, p1, p2, q1, q2]
      rw [h, hd] at es ec
      constructor
      · field_simp; linarith
      · field_simp; linarith
  · rintro (h | h)
    · obtain ⟨hs, hc⟩ := sameAngle_iff.mp h
      rw [hs, hc, Real.sin_add, Real.cos_add, p1, p2, q1, q2]
      field_simp
      rw [hr2]; ring
    · obtain ⟨hs, hc⟩ := sameAngle_iff.mp h
      rw [hs, hc, Real.sin_add, Real.cos_add, p1, p2, n1, n2]
      field_simp
      rw [hr2]; ring

theorem sincos_bound {A B C x : ℝ} (h : A * sin x + B * cos x = C) : C ^ 2 ≤ A ^ 2 + B ^ 2 := by
  have e : A ^ 2 + B ^ 2 = C ^ 2 + (A * cos x - B * sin x) ^ 2 := by
    rw [← h]; linear_combination -(A ^ 2 + B ^ 2) * Real.sin_sq_add_cos_sq x
  linarith [sq_nonneg (A * cos x - B * sin x)]

theorem sincos_zero_iff {A B x : ℝ} (hr : 0 < A ^ 2 + B ^ 2) :
    A * sin x + B * cos x = 0 ↔ SameAngle x (atan2 (-B) A) ∨ SameAngle x (atan2 (-B) A + π) := by
  obtain ⟨r, hr0, hr2⟩ : ∃ r, 0 < r ∧ r ^ 2 = A ^ 2 + B ^ 2 := ⟨√(A ^ 2 + B ^ 2), Real.sqrt_pos.mpr hr, Real.sq_sqrt hr.le⟩
  obtain ⟨p1, p2⟩ := atan2_polar hr0 (y := -B) (x := A) (by rw [hr2]; ring)
  have hrne := hr0.ne'
  have hsc := Real.sin_sq_add_cos_sq x
  constructor
  · intro h
    have hd : (A * cos x - B * sin x) ^ 2 = r ^ 2 := by
      rw [hr2]; linear_combination (A ^ 2 + B ^ 2) * hsc - (A * sin x + B * cos x) * h
    have es : r ^ 2 * sin x = A * (A * sin x + B * cos x) - B * (A * cos x - B * sin x) := by rw [hr2]; ring
    have ec : r ^ 2 * cos x = B * (A * sin x + B * cos x) + A * (A * cos x - B * sin x) := by rw [hr2]; ring
    rcases sq_eq_sq_iff_eq_or_eq_neg.mp hd with hd | hd
    · left
      rw [sameAngle_iff, p1, p2]
      rw [h, hd] at es ec
      constructor
      · field_simp; apply mul_left_cancel₀ hrne; linarith
      · field_simp; apply mul_left_cancel₀ hrne; linarith
    · right
      rw [sameAngle_iff, Real.sin_add_pi, Real.cos_add_pi, p1, p2]
      rw [h, hd] at es ec
      constructor
      · field_simp; apply mul_left_cancel₀ hrne; linarith
      · field_simp; apply mul_left_cancel₀ hrne; linarith
  · rintro (h | h)
    · obtain ⟨hs, hc⟩ := sameAngle_iff.mp h
      rw [hs, hc, p1, p2]; field_simp; ring
    · obtain ⟨hs, hc⟩ := sameAngle_iff.mp h
      rw [hs, hc, Real.sin_add_pi, Real.cos_add_pi, p1, p2]; field_simp; ring

/-! ## A sin + B cos = C, A cos - B sin = D -/

theorem simu_complete {A B C D x : ℝ} (hr : 0 < A ^ 2 + B ^ 2) (h1 : A * sin x + B * cos x = C)
    (h2 : A * cos x - B * sin x = D) : SameAngle x (atan2 (A * C - B * D) (A * D + B * C)) := by
  apply sameAngle_atan2 hr
  · rw [← h1, ← h2]; ring
  · rw [← h1, ← h2]; ring

theorem simu_sound {A B C D x : ℝ} (hr : 0 < A ^ 2 + B ^ 2) (h : C ^ 2 + D ^ 2 = A ^ 2 + B ^ 2)
    (hx : SameAngle x (atan2 (A * C - B * D) (A * D + B * C))) :
    A * sin x + B * cos x = C ∧ A * cos x - B * sin x = D := by
  obtain ⟨hs, hc⟩ := sameAngle_iff.mp hx
  obtain ⟨p1, p2⟩ := atan2_polar hr (y := A * C - B * D) (x := A * D + B * C)
    (by linear_combination (A ^ 2 + B ^ 2) * h)
  rw [hs, hc, p1, p2]
  have := hr.ne'
  exact ⟨by field_simp; ring, by field_simp; ring⟩

theorem simu_consistent {A B C D x : ℝ} (h1 : A * sin x + B * cos x = C) (h2 : A * cos x - B * sin x = D) :
    C ^ 2 + D ^ 2 = A ^ 2 + B ^ 2 := by
  rw [← h1, ← h2]; linear_combination (A ^ 2 + B ^ 2) * Real.sin_sq_add_cos_sq x

end Verif.Leaf
