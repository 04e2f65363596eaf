import Verif.Kin.Props
import Mathlib.Analysis.Calculus.Deriv.Mul
import Mathlib.Analysis.SpecialFunctions.Trigonometric.Deriv
import Mathlib.LinearAlgebra.Pi
import Mathlib.Algebra.Module.LinearMap.Basic
/-!
# C30: the velocity recursion and the Jacobian (ikbtbasics/kin_cl.py:370-454, ikbtbasics/pykinsym.py:356-376)
-/
namespace Verif.Kin
open Matrix Real

/-! ## Model -/

/-- `a.cross(b)` -/
def cross (a b : V3) : V3 := ![a 1 * b 2 - a 2 * b 1, a 2 * b 0 - a 0 * b 2, a 0 * b 1 - a 1 * b 0]

/-- kin_cl.py:388-390 and the five others: `w_{i+1} = R.T * w_i`, `+= [0,0,qd]` if `vv == 1` -/
def wStep (vv : ℤ) (qd : ℝ) (T : M4) (w : V3) : V3 := (rot T)ᵀ *ᵥ w + (if vv = 1 then ![0, 0, qd] else 0)

/-- kin_cl.py:423-425 and the five others: `v_{i+1} = R.T*(v_i + w_i.cross(P))`, `+= [0,0,qd]` if `vv == 0` -/
def vStep (vv : ℤ) (qd : ℝ) (T : M4) (w v : V3) : V3 :=
  (rot T)ᵀ *ᵥ (v + cross w (pos T)) + (if vv = 0 then ![0, 0, qd] else 0)

/-- kin_cl.py:385-449: the outward recursion over the links (unrolled for the six links in the code), for a list of links. -/
def velocities (vv : Fin 6 → ℤ) (qd : Fin 6 → ℝ) (T : Fin 6 → M4) : List (Fin 6) → V3 × V3 → V3 × V3
  | [], wv => wv
  | i :: l, wv => velocities vv qd T l (wStep (vv i) (qd i) (T i) wv.1, vStep (vv i) (qd i) (T i) wv.1 wv.2)

/-- w_66 -/
def w66 (vv : Fin 6 → ℤ) (T : Fin 6 → M4) (qd : Fin 6 → ℝ) : V3 := (velocities vv qd T (List.finRange 6) (0, 0)).1
/-- v_66 -/
def v66 (vv : Fin 6 → ℤ) (T : Fin 6 → M4) (qd : Fin 6 → ℝ) : V3 := (velocities vv qd T (List.finRange 6) (0, 0)).2

/-- pykinsym.py:356-376 `ManipJacobian_S`, kin_cl.py:452-454: six rows of partial derivatives by the joint rates, v first. -/
noncomputable def jacobian (v w : (Fin 6 → ℝ) → V3) (qd : Fin 6 → ℝ) (i : Fin 3 ⊕ Fin 3) (j : Fin 6) : ℝ :=
  match i with
  | .inl i => deriv (fun s => v (Function.update qd j s) i) (qd j)
  | .inr i => deriv (fun s => w (Function.update qd j s) i) (qd j)

/-! ## Specification -/

/-- The matrix of the map `x ↦ w × x`. -/
def skew (w : V3) : M3 := !![0, -w 2, w 1; w 2, 0, -w 0; -w 1, w 0, 0]

/-- At time t the pose T moves with angular velocity w and linear velocity v, both expressed in the moving frame:
R' = R·[w]×, P' = R·v. -/
def MovesWith (T : ℝ → M4) (t : ℝ) (w v : V3) : Prop :=
  (∀ i j, HasDerivAt (fun s => rot (T s) i j) ((rot (T t) * skew w) i j) t) ∧
  (∀ i, HasDerivAt (fun s => pos (T s) i) ((rot (T t) *ᵥ v) i) t)

/-- A robot moving: α and a are constant; the joint variable of row i is θ (`vv = 1`) or d (`vv = 0`), changing at rate
`qd i` at time t; the other one is at rest (both are, for any other `vv`). -/
structure Moving (rows : ℝ → Fin 6 → Row) (vv : Fin 6 → ℤ) (qd : Fin 6 → ℝ) (t : ℝ) : Prop where
  good : ∀ s, GoodRows (rows s)
  const : ∀ s i, (rows s i).ca = (rows t i).ca ∧ (rows s i).sa = (rows t i).sa ∧ (rows s i).a = (rows t i).a
  th : ∀ i, HasDerivAt (fun s => (rows s i).th) (if vv i = 1 then qd i else 0) t
  d : ∀ i, HasDerivAt (fun s => (rows s i).d) (if vv i = 0 then qd i else 0) t

/-! ## Lemmas -/

theorem skew_add (a b : V3) : skew (a + b) = skew a + skew b := by
  ext i j; fin_cases i <;> fin_cases j <;> simp [skew] <;> ring

theorem skew_mulVec (a b : V3) : skew a *ᵥ b = cross a b := by
  ext i; fin_cases i <;> simp [skew, cross, Matrix.mulVec, dotProduct, Fin.sum_univ_succ] <;> ring

theorem exists_angle {ca sa : ℝ} (h : ca ^ 2 + sa ^ 2 = 1) : ∃ al, ca = cos al ∧ sa = sin al := by
  obtain ⟨z, hz⟩ : ∃ z : ℂ, z = ⟨ca, sa⟩ := ⟨_, rfl⟩
  have hn : ‖z‖ = 1 := by
    rw [hz, Complex.norm_def, Complex.normSq_mk, show ca * ca + sa * sa = 1 by linarith [h, sq ca, sq sa], Real.sqrt_one]
  have hz0 : z ≠ 0 := by intro h0; rw [h0] at hn; simp at hn
  refine ⟨z.arg, ?_, ?_⟩
  · rw [Complex.cos_arg hz0, hn, div_one, hz]
  · rw [Complex.sin_arg, hn, div_one, hz]

theorem skew_rotX (w : V3) (t : ℝ) : skew w * rotX t = rotX t * skew ((rotX t)ᵀ *ᵥ w) := by
  have h := Real.sin_sq_add_cos_sq t
  ext i j; fin_cases i <;> fin_cases j <;>
    simp [skew, rotX, Matrix.mul_apply, Matrix.mulVec, dotProduct, Fin.sum_univ_succ] <;>
    first | ring1 | linear_combination (w 0) * h | linear_combination (-w 0) * h | linear_combination (w 1) * h |
      linear_combination (-w 1) * h | linear_combination (w 2) * h | linear_combination (-w 2) * h

theorem skew_rotZ (w : V3) (t : ℝ) : skew w * rotZ t = rotZ t * skew ((rotZ t)ᵀ *ᵥ w) := by
  have h := Real.sin_sq_add_cos_sq t
  ext i j; fin_cases i <;> fin_cases j <;>
    simp [skew, rotZ, Matrix.mul_apply, Matrix.mulVec, dotProduct, Fin.sum_univ_succ] <;>
    first | ring1 | linear_combination (w 0) * h | linear_combination (-w 0) * h | linear_combination (w 1) * h |
      linear_combination (-w 1) * h | linear_combination (w 2) * h | linear_combination (-w 2) * h

theorem rot_linkCS (al a d th : ℝ) : rot (linkCS (cos al) (sin al) a d th) = rotX al * rotZ th := by
  ext i j; fin_cases i <;> fin_cases j <;>
    simp [rot, linkCS, rotX, rotZ, Matrix.mul_apply, Fin.sum_univ_succ] <;> ring

theorem skew_link {ca sa : ℝ} (h : ca ^ 2 + sa ^ 2 = 1) (a d th : ℝ) (w : V3) :
    skew w * rot (linkCS ca sa a d th) = rot (linkCS ca sa a d th) * skew ((rot (linkCS ca sa a d th))ᵀ *ᵥ w) := by
  obtain ⟨al, rfl, rfl⟩ := exists_angle h
  rw [rot_linkCS, ← Matrix.mul_assoc, skew_rotX, Matrix.mul_assoc, skew_rotZ, Matrix.mul_assoc, transpose_mul,
    ← Matrix.mulVec_mulVec]

theorem mv3 (A : M3) (x : V3) (i : Fin 3) : (A *ᵥ x) i = A i 0 * x 0 + A i 1 * x 1 + A i 2 * x 2 := by
  rw [Matrix.mulVec, dotProduct, Fin.sum_univ_three]

theorem rot_mul {A B : M4} (hA : LastRow A) (hB : LastRow B) : rot (A * B) = rot A * rot B := by
  rw [eq_mk4 hA, eq_mk4 hB, mk4_mul]; simp
theorem pos_mul {A B : M4} (hA : LastRow A) (hB : LastRow B) : pos (A * B) = rot A *ᵥ pos B + pos A := by
  rw [eq_mk4 hA, eq_mk4 hB, mk4_mul]; simp

/-- How the rotation block of a link moves. -/
theorem link_rot_deriv {ca sa : ℝ} {th : ℝ → ℝ} {a d : ℝ → ℝ} {thd t : ℝ} (hth : HasDerivAt th thd t) (i j : Fin 3) :
    HasDerivAt (fun s => rot (linkCS ca sa (a s) (d s) (th s)) i j)
      ((rot (linkCS ca sa (a t) (d t) (th t)) * skew ![0, 0, thd]) i j) t := by
  have hc := hth.cos
  have hs := hth.sin
  fin_cases i <;> fin_cases j <;>
    simp only [rot, linkCS, skew, Matrix.mul_apply, Fin.sum_univ_succ] <;> simp
  · exact hc.congr_deriv (by ring)
  · exact hs.neg.congr_deriv (by ring)
  · exact hasDerivAt_const _ _
  · exact (hs.mul_const ca).congr_deriv (by ring)
  · exact (hc.mul_const ca).congr_deriv (by ring)
  · exact hasDerivAt_const _ _
  · exact (hs.mul_const sa).congr_deriv (by ring)
  · exact (hc.mul_const sa).congr_deriv (by ring)
  · exact hasDerivAt_const _ _

theorem link_pos_deriv {ca sa a : ℝ} {th d : ℝ → ℝ} {dd t : ℝ} (hd : HasDerivAt d dd t) (i : Fin 3) :
    HasDerivAt (fun s => pos (linkCS ca sa a (d s) (th s)) i)
      ((rot (linkCS ca sa a (d t) (th t)) *ᵥ ![0, 0, dd]) i) t := by
  fin_cases i <;> simp [pos, rot, linkCS, Matrix.mulVec, dotProduct, Fin.sum_univ_succ]
  · exact hasDerivAt_const _ _
  · exact ((hd.const_mul sa).neg).congr_deriv (by ring)
  · exact hd.const_mul ca

/-- One step: if the pose T moves with (w, v), then T·L moves with the velocities computed by the code. -/
theorem moves_step {T : ℝ → M4} {ca sa a : ℝ} {th d : ℝ → ℝ} {t qd : ℝ} {vv : ℤ} {w v : V3}
    (hT : ∀ s, LastRow (T s)) (h : MovesWith T t w v) (hcs : ca ^ 2 + sa ^ 2 = 1)
    (hth : HasDerivAt th (if vv = 1 then qd else 0) t) (hd : HasDerivAt d (if vv = 0 then qd else 0) t) :
    MovesWith (fun s => T s * linkCS ca sa a (d s) (th s)) t
      (wStep vv qd (linkCS ca sa a (d t) (th t)) w) (vStep vv qd (linkCS ca sa a (d t) (th t)) w v) := by
  have hL : ∀ s, LastRow (linkCS ca sa a (d s) (th s)) := fun s => (C26_linkCS_rigid hcs _ _ _).2
  have hR := (C26_linkCS_rigid hcs a (d t) (th t)).1
  obtain ⟨h1, h2⟩ := h
  have hz1 : (if vv = 1 then ![0, 0, qd] else 0 : V3) = ![0, 0, if vv = 1 then qd else 0] := by
    split
    · rfl
    · ext i; fin_cases i <;> rfl
  have hz0 : (if vv = 0 then ![0, 0, qd] else 0 : V3) = ![0, 0, if vv = 0 then qd else 0] := by
    split
    · rfl
    · ext i; fin_cases i <;> rfl
  constructor
  · intro i j
    have hLd := link_rot_deriv (ca := ca) (sa := sa) (a := fun _ => a) (d := d) hth
    simp only [rot_mul (hT _) (hL _)]
    have hsum : ∀ s, (rot (T s) * rot (linkCS ca sa a (d s) (th s))) i j =
        rot (T s) i 0 * rot (linkCS ca sa a (d s) (th s)) 0 j + rot (T s) i 1 * rot (linkCS ca sa a (d s) (th s)) 1 j +
        rot (T s) i 2 * rot (linkCS ca sa a (d s) (th s)) 2 j := by
      intro s; rw [Matrix.mul_apply, Fin.sum_univ_three]
    simp only [hsum]
    refine ((((h1 i 0).mul (hLd 0 j)).add ((h1 i 1).mul (hLd 1 j))).add ((h1 i 2).mul (hLd 2 j))).congr_deriv ?_
    have key : rot (T t) * skew w * rot (linkCS ca sa a (d t) (th t)) +
        rot (T t) * (rot (linkCS ca sa a (d t) (th t)) * skew ![0, 0, if vv = 1 then qd else 0]) =
        rot (T t) * rot (linkCS ca sa a (d t) (th t)) * skew (wStep vv qd (linkCS ca sa a (d t) (th t)) w) := by
      rw [wStep, hz1, skew_add, Matrix.mul_add, Matrix.mul_assoc, skew_link hcs]
      simp only [Matrix.mul_assoc]
    rw [← key]
    simp only [Matrix.add_apply]
    rw [Matrix.mul_apply (M := rot (T t) * skew w), Matrix.mul_apply (M := rot (T t)) (N := rot (linkCS ca sa a (d t) (th t)) * _),
      Fin.sum_univ_three, Fin.sum_univ_three]
    ring
  · intro i
    have hLd := link_pos_deriv (ca := ca) (sa := sa) (a := a) (th := th) hd
    simp only [rot_mul (hT _) (hL _), pos_mul (hT _) (hL _)]
    have hsum : ∀ s, (rot (T s) *ᵥ pos (linkCS ca sa a (d s) (th s)) + pos (T s)) i =
        rot (T s) i 0 * pos (linkCS ca sa a (d s) (th s)) 0 + rot (T s) i 1 * pos (linkCS ca sa a (d s) (th s)) 1 +
        rot (T s) i 2 * pos (linkCS ca sa a (d s) (th s)) 2 + pos (T s) i := by
      intro s; rw [Pi.add_apply, mv3]
    simp only [hsum]
    refine (((((h1 i 0).mul (hLd 0)).add ((h1 i 1).mul (hLd 1))).add ((h1 i 2).mul (hLd 2))).add (h2 i)).congr_deriv ?_
    have key : (rot (T t) * skew w) *ᵥ pos (linkCS ca sa a (d t) (th t)) +
        rot (T t) *ᵥ (rot (linkCS ca sa a (d t) (th t)) *ᵥ ![0, 0, if vv = 0 then qd else 0]) + rot (T t) *ᵥ v =
        (rot (T t) * rot (linkCS ca sa a (d t) (th t))) *ᵥ vStep vv qd (linkCS ca sa a (d t) (th t)) w v := by
      have e : ∀ y, (rot (T t) * rot (linkCS ca sa a (d t) (th t))) *ᵥ ((rot (linkCS ca sa a (d t) (th t)))ᵀ *ᵥ y) =
          rot (T t) *ᵥ y := by
        intro y; rw [Matrix.mulVec_mulVec, Matrix.mul_assoc, hR.2.1, Matrix.mul_one]
      rw [vStep, hz0, Matrix.mulVec_add, e, Matrix.mulVec_add, ← Matrix.mulVec_mulVec, skew_mulVec, Matrix.mulVec_mulVec]
      abel
    rw [← key]
    simp only [Pi.add_apply]
    rw [mv3 (rot (T t) * skew w), mv3 (rot (T t)) (_ *ᵥ _)]
    ring

/-! ## C30 -/

/-- The pose of the frame after the links in the list. -/
noncomputable def chain (T : Fin 6 → M4) : List (Fin 6) → M4 → M4
  | [], B => B
  | i :: l, B => chain T l (B * T i)

theorem chain_moves {rows : ℝ → Fin 6 → Row} {vv : Fin 6 → ℤ} {qd : Fin 6 → ℝ} {t : ℝ} (h : Moving rows vv qd t) :
    ∀ (l : List (Fin 6)) (B : ℝ → M4) (w v : V3), (∀ s, LastRow (B s)) → MovesWith B t w v →
      MovesWith (fun s => chain (links (rows s)) l (B s)) t
        (velocities vv qd (links (rows t)) l (w, v)).1 (velocities vv qd (links (rows t)) l (w, v)).2
  | [], B, w, v, _, hm => hm
  | i :: l, B, w, v, hB, hm => by
    have hlink : ∀ s, links (rows s) i =
        linkCS (rows t i).ca (rows t i).sa (rows t i).a (rows s i).d (rows s i).th := by
      intro s
      obtain ⟨h1, h2, h3⟩ := h.const s i
      simp only [links, Row.link, h1, h2, h3]
    have hstep := moves_step (a := (rows t i).a) hB hm (h.good t i) (h.th i) (h.d i)
    simp only [← hlink] at hstep
    exact chain_moves h l (fun s => B s * links (rows s) i) _ _
      (fun s => last_mul (hB s) (links_rigid (h.good s) i).2) hstep

theorem chain_t06 (T : Fin 6 → M4) : chain T (List.finRange 6) 1 = t06 T := by
  simp [List.finRange_succ, List.finRange_zero, chain, t06]

/-- C30. For every DH table, all joint types, every differentiable motion of the joints and every time: the computed angular
and linear velocity of the last frame are its true velocities in body coordinates: R' = R·[w_66]×, P' = R·v_66. -/
theorem C30_velocity_recursion {rows : ℝ → Fin 6 → Row} {vv : Fin 6 → ℤ} {qd : Fin 6 → ℝ} {t : ℝ}
    (h : Moving rows vv qd t) :
    MovesWith (fun s => t06 (links (rows s))) t (w66 vv (links (rows t)) qd) (v66 vv (links (rows t)) qd) := by
  have h0 : MovesWith (fun _ => 1) t 0 0 := by
    constructor
    · intro i j
      have : skew 0 = 0 := by ext i j; fin_cases i <;> fin_cases j <;> simp [skew]
      rw [this]; simpa using hasDerivAt_const t _
    · intro i; simpa using hasDerivAt_const t _
  have := chain_moves h (List.finRange 6) (fun _ => 1) 0 0 (fun _ => rigid_one.2) h0
  simp only [chain_t06] at this
  exact this

theorem z_add (p q : ℝ) : (![0, 0, p + q] : V3) = ![0, 0, p] + ![0, 0, q] := by
  ext k; fin_cases k <;> simp
theorem z_smul (c q : ℝ) : (![0, 0, c * q] : V3) = c • ![0, 0, q] := by
  ext k; fin_cases k <;> simp

/-- The recursion is linear in the joint rates. -/
theorem velocities_linear (vv : Fin 6 → ℤ) (T : Fin 6 → M4) : ∀ (l : List (Fin 6)) (w v : (Fin 6 → ℝ) → V3),
    IsLinearMap ℝ w → IsLinearMap ℝ v →
    IsLinearMap ℝ (fun qd => (velocities vv qd T l (w qd, v qd)).1) ∧
    IsLinearMap ℝ (fun qd => (velocities vv qd T l (w qd, v qd)).2)
  | [], w, v, hw, hv => ⟨hw, hv⟩
  | i :: l, w, v, hw, hv => by
    apply velocities_linear vv T l (fun qd => wStep (vv i) (qd i) (T i) (w qd))
      (fun qd => vStep (vv i) (qd i) (T i) (w qd) (v qd))
    · constructor
      · intro x y
        simp only [wStep, hw.map_add, Matrix.mulVec_add, Pi.add_apply]
        split
        · rw [z_add]; abel
        · simp
      · intro c x
        simp only [wStep, hw.map_smul, Matrix.mulVec_smul, Pi.smul_apply, smul_eq_mul]
        split
        · rw [z_smul, smul_add]
        · simp
    · have hc1 : ∀ a b c : V3, cross (a + b) c = cross a c + cross b c := by
        intro a b c; ext k; fin_cases k <;> simp [cross] <;> ring
      have hc2 : ∀ (r : ℝ) (a b : V3), cross (r • a) b = r • cross a b := by
        intro r a b; ext k; fin_cases k <;> simp [cross] <;> ring
      constructor
      · intro x y
        simp only [vStep, hw.map_add, hv.map_add, hc1, Matrix.mulVec_add, Pi.add_apply]
        split
        · rw [z_add]; abel
        · simp only [add_zero]; abel
      · intro c x
        simp only [vStep, hw.map_smul, hv.map_smul, hc2, ← smul_add, Matrix.mulVec_smul, Pi.smul_apply, smul_eq_mul]
        split
        · rw [z_smul, smul_add]
        · simp

theorem deriv_linear {f : (Fin 6 → ℝ) → V3} (hf : IsLinearMap ℝ f) (qd : Fin 6 → ℝ) (j : Fin 6) (i : Fin 3) :
    deriv (fun s => f (Function.update qd j s) i) (qd j) = f (Pi.single j 1) i := by
  have : ∀ s, f (Function.update qd j s) i = f (Function.update qd j 0) i + s * f (Pi.single j 1) i := by
    intro s
    have e : Function.update qd j s = Function.update qd j 0 + s • Pi.single j 1 := by
      ext k
      by_cases hk : k = j
      · subst hk; simp
      · simp [hk]
    rw [e, hf.map_add, hf.map_smul]; simp
  rw [funext this]
  have h := ((hasDerivAt_id (qd j)).mul_const (f (Pi.single j 1) i)).const_add (f (Function.update qd j 0) i)
  simpa using h.deriv

theorem sum_linear {f : (Fin 6 → ℝ) → V3} (hf : IsLinearMap ℝ f) (qd : Fin 6 → ℝ) (i : Fin 3) :
    ∑ j, f (Pi.single j 1) i * qd j = f qd i := by
  have h := LinearMap.pi_apply_eq_sum_univ (hf.mk' f) qd
  simp only [IsLinearMap.mk'_apply] at h
  conv_rhs => rw [h]
  rw [Finset.sum_apply]
  apply Finset.sum_congr rfl
  intro j _
  have : (fun k => if j = k then (1 : ℝ) else 0) = Pi.single j 1 := by
    ext k
    by_cases hk : j = k
    · subst hk; simp
    · simp [hk, Ne.symm hk]
  simp only [this, Pi.smul_apply, smul_eq_mul, mul_comm]

/-- C30, Jacobian: J66 does not depend on the joint rates, and J66·q̇ = (v_66, w_66), the velocities of the theorem above. -/
theorem C30_jacobian (vv : Fin 6 → ℤ) (T : Fin 6 → M4) (qd : Fin 6 → ℝ) :
    (∀ i, ∑ j, jacobian (v66 vv T) (w66 vv T) qd (.inl i) j * qd j = v66 vv T qd i) ∧
    (∀ i, ∑ j, jacobian (v66 vv T) (w66 vv T) qd (.inr i) j * qd j = w66 vv T qd i) ∧
    ∀ qd', jacobian (v66 vv T) (w66 vv T) qd' = jacobian (v66 vv T) (w66 vv T) qd := by
  obtain ⟨hw, hv⟩ := velocities_linear vv T (List.finRange 6) (fun _ => 0) (fun _ => 0)
    ⟨by simp, by simp⟩ ⟨by simp, by simp⟩
  have hv' : IsLinearMap ℝ (v66 vv T) := hv
  have hw' : IsLinearMap ℝ (w66 vv T) := hw
  refine ⟨fun i => ?_, fun i => ?_, fun qd' => ?_⟩
  · simp only [jacobian, deriv_linear hv']; exact sum_linear hv' qd i
  · simp only [jacobian, deriv_linear hw']; exact sum_linear hw' qd i
  · ext i j
    cases i with
    | inl i => simp only [jacobian, deriv_linear hv']
    | inr i => simp only [jacobian, deriv_linear hw']

/-- Non-vacuity: a robot with revolute and prismatic joints, moving at constant rates. -/
example : Moving (fun s i => if i.val % 2 = 0 then ⟨Real.cos i, Real.sin i, 1, 2, 3 + i * s⟩
      else ⟨Real.cos i, Real.sin i, 1, 2 + i * s, 3⟩)
    (fun i => if i.val % 2 = 0 then 1 else 0) (fun i => i) 5 where
  good s i := by
    by_cases h : i.val % 2 = 0
    · simp only [h, if_true]; exact Real.cos_sq_add_sin_sq _
    · simp only [h, if_false]; exact Real.cos_sq_add_sin_sq _
  const s i := by by_cases h : i.val % 2 = 0 <;> simp [h]
  th i := by
    by_cases h : i.val % 2 = 0
    · simp only [h, if_true]
      simpa using ((hasDerivAt_id (5 : ℝ)).const_mul (i : ℝ)).const_add 3
    · simp only [h, if_false]; simpa using hasDerivAt_const (5 : ℝ) (3 : ℝ)
  d i := by
    by_cases h : i.val % 2 = 0
    · simp only [h, if_true]; simpa using hasDerivAt_const (5 : ℝ) (2 : ℝ)
    · simp only [h, if_false]
      simpa using ((hasDerivAt_id (5 : ℝ)).const_mul (i : ℝ)).const_add 2

end Verif.Kin
