import Verif.Kin.Padding
import Mathlib.Tactic.FinCases

/-!
# C88: velocities and Jacobians of all frames of the arm

`mechanism.forward_kinematics` leaves the velocities of every frame in the attributes `w_11 … w_66`, `v_11 … v_66` (kin_cl.py:376-450), and
`ManipJacobian_S(v, w, x)` makes a Jacobian for any of them and any list of symbols (pykinsym.py:350-376; fk_EE543.py:91-111).
-/
namespace Verif.Kin
open Matrix Real

/-! ## Model -/

/-- values of the symbols -/
abbrev Vals := String → ℝ

/-- kin_cl.py:35: the symbols `qd_1 … qd_6` -/
def rateName (i : Fin 6) : String := ["qd_1", "qd_2", "qd_3", "qd_4", "qd_5", "qd_6"].getD i.val ""

/-- kin_cl.py:380-450: `w_kk` as an expression of the symbols; `table` is the DH table with its symbols -/
noncomputable def frameW (table : Vals → Fin 6 → Row) (vv : Fin 6 → ℤ) (k : ℕ) (x : Vals) : V3 :=
  (velocities vv (fun i => x (rateName i)) (links (table x)) ((List.finRange 6).take k) (0, 0)).1

/-- kin_cl.py:416-450: `v_kk` -/
noncomputable def frameV (table : Vals → Fin 6 → Row) (vv : Fin 6 → ℤ) (k : ℕ) (x : Vals) : V3 :=
  (velocities vv (fun i => x (rateName i)) (links (table x)) ((List.finRange 6).take k) (0, 0)).2

/-- pykinsym.py:356-376 `ManipJacobian_S(v, w, x)`: one column of partial derivatives for each symbol of the list -/
noncomputable def manipJacobian (v w : Vals → V3) (names : List String) (x : Vals) (i : Fin 3 ⊕ Fin 3) (j : Fin names.length) : ℝ :=
  match i with
  | .inl i => deriv (fun s => v (Function.update x names[j] s) i) (x names[j])
  | .inr i => deriv (fun s => w (Function.update x names[j] s) i) (x names[j])

/-- fk_EE543.py:71-78: the table of MiniDD -/
noncomputable def scriptTable (x : Vals) : Fin 6 → Row :=
  ![⟨1, 0, 0, x "d_1", 0⟩, ⟨0, -1, 0, 0, x "th_2"⟩, ⟨0, -1, x "l_3", 0, x "th_3"⟩, ⟨0, -1, 0, x "l_4", x "th_4"⟩, ⟨0, -1, 0, 0, x "th_5"⟩, ⟨1, 0, 0, 0, 0⟩]

/-- fk_EE543.py:79 -/
def scriptTypes : Fin 6 → ℤ := ![0, 1, 1, 1, 1, 1]

/-- fk_EE543.py:111: the matrix that the script prints -/
noncomputable def scriptJacobian : Vals → Fin 3 ⊕ Fin 3 → Fin 3 → ℝ :=
  manipJacobian (frameV scriptTable scriptTypes 3) (frameW scriptTable scriptTypes 3) ["th_1", "th_2", "th_3"]

/-! ## Specification -/

/-- The pose of frame k: the product of the first k links. -/
noncomputable def pose (k : ℕ) (rows : Fin 6 → Row) : M4 := (((List.finRange 6).take k).map (links rows)).prod

/-- The table does not contain the joint rates. -/
def NoRates (table : Vals → Fin 6 → Row) : Prop := ∀ x i s, table (Function.update x (rateName i) s) = table x

/-! ## Lemmas -/

theorem rateName_inj {i j : Fin 6} (h : rateName i = rateName j) : i = j := by
  revert i j; decide

theorem chain_prod (T : Fin 6 → M4) : ∀ (l : List (Fin 6)) (B : M4), chain T l B = B * (l.map T).prod
  | [], B => by simp [chain]
  | i :: l, B => by rw [chain, chain_prod T l, List.map_cons, List.prod_cons, Matrix.mul_assoc]

/-- (proof) the velocities of frame k, at given rates -/
noncomputable def atRates (vv : Fin 6 → ℤ) (T : Fin 6 → M4) (k : ℕ) (qd : Fin 6 → ℝ) : V3 × V3 := velocities vv qd T ((List.finRange 6).take k) (0, 0)

theorem atRates_linear (vv : Fin 6 → ℤ) (T : Fin 6 → M4) (k : ℕ) :
    IsLinearMap ℝ (fun qd => (atRates vv T k qd).1) ∧ IsLinearMap ℝ (fun qd => (atRates vv T k qd).2) :=
  velocities_linear vv T ((List.finRange 6).take k) (fun _ => 0) (fun _ => 0) ⟨by simp, by simp⟩ ⟨by simp, by simp⟩

theorem rates_update (x : Vals) (j : Fin 6) (s : ℝ) :
    (fun i => Function.update x (rateName j) s (rateName i)) = Function.update (fun i => x (rateName i)) j s := by
  funext i
  by_cases h : i = j
  · subst h; simp
  · rw [Function.update_of_ne fun e => h (rateName_inj e), Function.update_of_ne h]

/-- (proof) -/
theorem column_eq {table : Vals → Fin 6 → Row} (ht : NoRates table) (vv : Fin 6 → ℤ) (k : ℕ) (js : List (Fin 6)) (x : Vals)
    (c : Fin (js.map rateName).length) (j : Fin 6) (hj : (js.map rateName)[c] = rateName j) (i : Fin 3) :
    manipJacobian (frameV table vv k) (frameW table vv k) (js.map rateName) x (.inl i) c = (atRates vv (links (table x)) k (Pi.single j 1)).2 i ∧
    manipJacobian (frameV table vv k) (frameW table vv k) (js.map rateName) x (.inr i) c = (atRates vv (links (table x)) k (Pi.single j 1)).1 i := by
  obtain ⟨hw, hv⟩ := atRates_linear vv (links (table x)) k
  have e1 : ∀ s, frameV table vv k (Function.update x (rateName j) s) =
      (atRates vv (links (table x)) k (Function.update (fun i => x (rateName i)) j s)).2 := fun s => by
    unfold frameV atRates; rw [rates_update, ht]
  have e2 : ∀ s, frameW table vv k (Function.update x (rateName j) s) =
      (atRates vv (links (table x)) k (Function.update (fun i => x (rateName i)) j s)).1 := fun s => by
    unfold frameW atRates; rw [rates_update, ht]
  unfold manipJacobian
  dsimp only
  rw [hj]
  simp only [e1, e2]
  exact ⟨deriv_linear hv (fun i => x (rateName i)) j i, deriv_linear hw (fun i => x (rateName i)) j i⟩

/-- (proof) a frame does not move when only a joint after it does -/
theorem later_joint (vv : Fin 6 → ℤ) (T : Fin 6 → M4) (j : Fin 6) : ∀ l : List (Fin 6), j ∉ l →
    velocities vv (Pi.single j 1) T l (0, 0) = (0, 0)
  | [], _ => rfl
  | i :: l, h => by
    have hi : i ≠ j := fun e => h (by simp [e])
    rw [velocities]
    have e1 : wStep (vv i) ((Pi.single j 1 : Fin 6 → ℝ) i) (T i) 0 = 0 := by rw [single_ne hi, wStep_rest, Matrix.mulVec_zero]
    have e2 : vStep (vv i) ((Pi.single j 1 : Fin 6 → ℝ) i) (T i) 0 0 = 0 := by
      rw [single_ne hi, vStep_rest, cross_zero, add_zero, Matrix.mulVec_zero]
    rw [e1, e2]
    exact later_joint vv T j l fun e => h (by simp [e])

/-! ## The theorems -/

/-- Every frame: for every DH table, all joint types, every motion of the joints and every time, `w_kk` and `v_kk` are the true velocities of frame k in its own
coordinates. -/
theorem C88_frame_velocities {rows : ℝ → Fin 6 → Row} {vv : Fin 6 → ℤ} {qd : Fin 6 → ℝ} {t : ℝ} (h : Moving rows vv qd t)
    (table : Vals → Fin 6 → Row) (x : Vals) (ht : table x = rows t) (hx : ∀ i, x (rateName i) = qd i) (k : ℕ) :
    MovesWith (fun s => pose k (rows s)) t (frameW table vv k x) (frameV table vv k x) := by
  have h0 : MovesWith (fun _ => 1) t 0 0 := by
    constructor
    · intro i j
      have : skew 0 = 0 := by ext i j; fin_cases i <;> fin_cases j <;> simp [skew]
      rw [this]; simpa using hasDerivAt_const t _
    · intro i; simpa using hasDerivAt_const t _
  have := chain_moves h ((List.finRange 6).take k) (fun _ => 1) 0 0 (fun _ => rigid_one.2) h0
  simp only [chain_prod, Matrix.one_mul] at this
  have e : (fun i => x (rateName i)) = qd := funext hx
  unfold frameW frameV
  rw [ht, e]
  exact this

/-- The Jacobian of any frame by any list of joint rates: each column holds the velocities of the frame when that joint alone moves, at unit rate. -/
theorem C88_column {table : Vals → Fin 6 → Row} (ht : NoRates table) {rows : ℝ → Fin 6 → Row} {vv : Fin 6 → ℤ} {j : Fin 6} {t : ℝ}
    (h : Moving rows vv (Pi.single j 1) t) (x : Vals) (hx : table x = rows t) (k : ℕ) (js : List (Fin 6)) (c : Fin (js.map rateName).length)
    (hj : (js.map rateName)[c] = rateName j) :
    MovesWith (fun s => pose k (rows s)) t
      (fun i => manipJacobian (frameV table vv k) (frameW table vv k) (js.map rateName) x (.inr i) c)
      (fun i => manipJacobian (frameV table vv k) (frameW table vv k) (js.map rateName) x (.inl i) c) := by
  have := C88_frame_velocities h (fun _ => rows t) (fun n => if n = rateName j then 1 else 0) rfl (fun i => by
    by_cases e : i = j
    · subst e; simp
    · simp [e, show rateName i ≠ rateName j from fun e' => e (rateName_inj e')]) k
  have e : (fun i => (fun n : String => if n = rateName j then (1 : ℝ) else 0) (rateName i)) = Pi.single j 1 := by
    funext i
    by_cases e : i = j
    · subst e; simp
    · simp [e, show rateName i ≠ rateName j from fun e' => e (rateName_inj e')]
  have e1 : (fun i => manipJacobian (frameV table vv k) (frameW table vv k) (js.map rateName) x (.inr i) c) =
      (atRates vv (links (rows t)) k (Pi.single j 1)).1 := funext fun i => by rw [(column_eq ht vv k js x c j hj i).2, hx]
  have e2 : (fun i => manipJacobian (frameV table vv k) (frameW table vv k) (js.map rateName) x (.inl i) c) =
      (atRates vv (links (rows t)) k (Pi.single j 1)).2 := funext fun i => by rw [(column_eq ht vv k js x c j hj i).1, hx]
  rw [e1, e2]
  unfold frameW frameV at this
  rw [e] at this
  exact this

/-- With all joint rates in the list, the Jacobian of frame k maps the rates to the velocities, it contains no rates, and its columns for the joints after
frame k are zero. -/
theorem C88_jacobian {table : Vals → Fin 6 → Row} (ht : NoRates table) (vv : Fin 6 → ℤ) (k : ℕ) (x : Vals) :
    let J := manipJacobian (frameV table vv k) (frameW table vv k) ["qd_1", "qd_2", "qd_3", "qd_4", "qd_5", "qd_6"]
    (∀ i, ∑ j : Fin 6, J x (.inl i) j * x (rateName j) = frameV table vv k x i) ∧
    (∀ i, ∑ j : Fin 6, J x (.inr i) j * x (rateName j) = frameW table vv k x i) ∧
    (∀ (j : Fin 6) s, J (Function.update x (rateName j) s) = J x) ∧
    ∀ j : Fin 6, k ≤ j.val → ∀ i, J x i j = 0 := by
  intro J
  have hc : ∀ (x : Vals) (j : Fin 6) (i : Fin 3), J x (.inl i) j = (atRates vv (links (table x)) k (Pi.single j 1)).2 i ∧
      J x (.inr i) j = (atRates vv (links (table x)) k (Pi.single j 1)).1 i := fun x j i =>
    column_eq ht vv k (List.finRange 6) x j j (by fin_cases j <;> rfl) i
  obtain ⟨hw, hv⟩ := atRates_linear vv (links (table x)) k
  refine ⟨fun i => ?_, fun i => ?_, fun j s => ?_, fun j hj i => ?_⟩
  · simp only [fun j => (hc x j i).1]
    exact sum_linear hv (fun j => x (rateName j)) i
  · simp only [fun j => (hc x j i).2]
    exact sum_linear hw (fun j => x (rateName j)) i
  · funext i c
    rcases i with i | i
    · rw [(hc _ c i).1, (hc _ c i).1, ht]
    · rw [(hc _ c i).2, (hc _ c i).2, ht]
  · have hz : atRates vv (links (table x)) k (Pi.single j 1) = (0, 0) := later_joint vv _ j _ fun hm => by
      obtain ⟨a, ha, e⟩ := List.mem_take_iff_getElem.1 hm
      have : (List.finRange 6)[a].val = a := by simp
      rw [e] at this
      omega
    rcases i with i | i
    · rw [(hc x j i).1, hz]; rfl
    · rw [(hc x j i).2, hz]; rfl

/-- **C88 violated.** fk_EE543.py passes joint positions instead of rates, of which the first does not occur in its robot: at every pose the first column that it
prints is zero, while frame 3 moves along with the first joint at the speed of that joint. -/
theorem C88_script_violation (x : Vals) : (∀ i, scriptJacobian x i 0 = 0) ∧
    let v : V3 := fun i => manipJacobian (frameV scriptTable scriptTypes 3) (frameW scriptTable scriptTypes 3) ["qd_1", "qd_2", "qd_3"] x (.inl i) 0
    v 0 ^ 2 + v 1 ^ 2 + v 2 ^ 2 = 1 := by
  have hne : ∀ j, rateName j ≠ "th_1" := by decide
  refine ⟨fun i => ?_, ?_⟩
  · have hT : ∀ s, scriptTable (Function.update x "th_1" s) = scriptTable x := fun s => by simp [scriptTable]
    have hr : ∀ s, (fun i => Function.update x "th_1" s (rateName i)) = fun i => x (rateName i) := fun s => by
      funext i; rw [Function.update_of_ne (hne i)]
    rcases i with i | i
    · show deriv (fun s => frameV scriptTable scriptTypes 3 (Function.update x "th_1" s) i) _ = 0
      simp only [frameV, hT, hr]
      exact deriv_const _ _
    · show deriv (fun s => frameW scriptTable scriptTypes 3 (Function.update x "th_1" s) i) _ = 0
      simp only [frameW, hT, hr]
      exact deriv_const _ _
  · intro v
    have ht : NoRates scriptTable := fun x i s => by fin_cases i <;> simp [scriptTable, rateName]
    have hv : v = (atRates scriptTypes (links (scriptTable x)) 3 (Pi.single 0 1)).2 := funext fun i =>
      (column_eq ht scriptTypes 3 [0, 1, 2] x ⟨0, by decide⟩ 0 rfl i).1
    have hg : GoodRows (scriptTable x) := fun i => by fin_cases i <;> simp [scriptTable]
    have h := ((one_joint (links_rigid hg) scriptTypes 0 ((List.finRange 6).take 3) (by decide) (by decide)).2.1 rfl).2
    rw [hv]
    rw [dotProduct, Fin.sum_univ_three] at h
    unfold atRates
    linarith [h, sq ((velocities scriptTypes (Pi.single 0 1) (links (scriptTable x)) ((List.finRange 6).take 3) (0, 0)).2 0)]

/-- The conditions of `C88_frame_velocities`, `C88_column` and `C88_jacobian`: the robot of the script, its first joint moving at unit rate. -/
example (x : Vals) (t : ℝ) : NoRates scriptTable ∧
    Moving (fun s => scriptTable (Function.update x "d_1" s)) scriptTypes (Pi.single 0 1) t := by
  refine ⟨fun x i s => by fin_cases i <;> simp [scriptTable, rateName], ?_⟩
  constructor
  · intro s i; fin_cases i <;> simp [scriptTable]
  · intro s i; fin_cases i <;> simp [scriptTable]
  · intro i
    fin_cases i <;> simp [scriptTable, scriptTypes, hasDerivAt_const]
  · intro i
    fin_cases i <;> simp [scriptTable, scriptTypes, hasDerivAt_const]
    exact hasDerivAt_id t

end Verif.Kin
