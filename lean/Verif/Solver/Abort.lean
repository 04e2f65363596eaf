import Verif.Solver.Method
import Verif.Solver.TypedProps
/-!
# C76: which exceptions a run of the solver can raise

`Safe` is a Hoare triple with exceptions over the composition of leaf functions that the tree of ikSolver.py is (`Solver/Basic`).
-/
namespace Verif.Solver
open Verif.Leaf Verif.Eqn Verif.Sol Verif.Sym
open Verif.BT hiding Tree

/-- From a state in `I`, `f` raises only exceptions in `Bad` and otherwise ends in `J`. -/
def Safe {σ : Type} (Bad : Crash → Prop) (I : σ → Prop) (J : Status → σ → Prop) (f : σ → DRes σ) : Prop :=
  ∀ u, I u → (∀ c, f u = .error c → Bad c) ∧ ∀ st u', f u = .ok (st, u') → J st u'

section
variable {σ L : Type} {Bad : Crash → Prop}

theorem Safe.mono {I I' : σ → Prop} {J J' : Status → σ → Prop} {f : σ → DRes σ} (h : Safe Bad I J f) (hi : ∀ u, I' u → I u)
    (hj : ∀ st u, J st u → J' st u) : Safe Bad I' J' f :=
  fun u hu => ⟨(h u (hi u hu)).1, fun st u' e => hj _ _ ((h u (hi u hu)).2 st u' e)⟩

theorem safe_seq_nil {I : σ → Prop} {K : Status → σ → Prop} (h : ∀ u, I u → K .success u) : Safe Bad I K (denSeq []) :=
  fun u hu => ⟨fun c e => (by cases e), fun st u' e => by cases e; exact h u hu⟩

theorem safe_seq_cons {I : σ → Prop} {J K : Status → σ → Prop} {f : σ → DRes σ} {fs} (h : Safe Bad I J f)
    (hn : ∀ st u, st ≠ .success → J st u → K st u) (hs : Safe Bad (J .success) K (denSeq fs)) : Safe Bad I K (denSeq (f :: fs)) := by
  intro u hu
  obtain ⟨h1, h2⟩ := h u hu
  simp only [denSeq]
  cases hf : f u with
  | error c => exact ⟨fun c' e => (by cases e; exact h1 c hf), fun st u' e => by cases e⟩
  | ok r =>
    obtain ⟨st, u1⟩ := r
    have hj := h2 st u1 hf
    by_cases hst : st = .success
    · subst hst; simpa using hs u1 hj
    · simp only [hst, if_false]
      exact ⟨fun c' e => (by cases e), fun st' u' e => by cases e; exact hn _ _ hst hj⟩

theorem safe_pri_nil {I : σ → Prop} {K : Status → σ → Prop} (h : ∀ u, I u → K .failure u) : Safe Bad I K (denPri []) :=
  fun u hu => ⟨fun c e => (by cases e), fun st u' e => by cases e; exact h u hu⟩

theorem safe_pri_cons {I : σ → Prop} {J K : Status → σ → Prop} {f : σ → DRes σ} {fs} (h : Safe Bad I J f)
    (hn : ∀ st u, st ≠ .failure → J st u → K st u) (hs : Safe Bad (J .failure) K (denPri fs)) : Safe Bad I K (denPri (f :: fs)) := by
  intro u hu
  obtain ⟨h1, h2⟩ := h u hu
  simp only [denPri]
  cases hf : f u with
  | error c => exact ⟨fun c' e => (by cases e; exact h1 c hf), fun st u' e => by cases e⟩
  | ok r =>
    obtain ⟨st, u1⟩ := r
    have hj := h2 st u1 hf
    by_cases hst : st = .failure
    · subst hst; simpa using hs u1 hj
    · simp only [hst, if_false]
      exact ⟨fun c' e => (by cases e), fun st' u' e => by cases e; exact hn _ _ hst hj⟩

theorem safe_or_nil {I : σ → Prop} {acc : Status} : Safe Bad I (fun _ => I) (denOr [] acc) :=
  fun u hu => ⟨fun c e => (by cases e), fun st u' e => by cases e; exact hu⟩

theorem safe_or_cons {I J : σ → Prop} {K : Status → σ → Prop} {f : σ → DRes σ} {fs} (h : Safe Bad I (fun _ => J) f)
    (hs : ∀ acc, Safe Bad J K (denOr fs acc)) (acc : Status) : Safe Bad I K (denOr (f :: fs) acc) := by
  intro u hu
  obtain ⟨h1, h2⟩ := h u hu
  simp only [denOr]
  cases hf : f u with
  | error c => exact ⟨fun c' e => (by cases e; exact h1 c hf), fun st u' e => by cases e⟩
  | ok r => exact hs _ _ (h2 _ _ hf)

theorem safe_until {E : Env σ L} {I : σ → Prop} {f : σ → DRes σ} (h : Safe Bad I (fun _ => I) f) {m : Int} (hm : 0 < m) :
    Safe Bad I (fun _ => I) (denDeco E 0 (.untilSuccess m) f) := by
  have loop : ∀ n last i u, I u → n = (m - i).toNat → (∀ c, denLoop (fun s => s = .failure) m f n last i u = .error c → Bad c) ∧
      ∀ st u', denLoop (fun s => s = .failure) m f n last i u = .ok (st, u') → I u' ∧ (i < m ∨ last ≠ none → st ≠ none) := by
    intro n
    induction n with
    | zero =>
      intro last i u hu hn
      unfold denLoop
      rw [if_neg (by omega)]
      refine ⟨fun c e => (by cases e), fun st u' e => ?_⟩
      cases e
      exact ⟨hu, fun h => by rcases h with h | h; omega; exact h⟩
    | succ n ih =>
      intro last i u hu hn
      unfold denLoop
      rw [if_pos (by omega)]
      dsimp only
      obtain ⟨h1, h2⟩ := h u hu
      cases hf : f u with
      | error c => exact ⟨fun c' e => (by cases e; exact h1 c hf), fun st u' e => by cases e⟩
      | ok r =>
        obtain ⟨st, u1⟩ := r
        have hj := h2 st u1 hf
        by_cases hc : st = .failure
        · simp only [hc, decide_true, if_true]
          obtain ⟨h3, h4⟩ := ih (some .failure) (i + 1) u1 hj (by omega)
          exact ⟨h3, fun st u' e => ⟨(h4 st u' e).1, fun _ => (h4 st u' e).2 (.inr (by simp))⟩⟩
        · simp only [hc, decide_false, Bool.false_eq_true, if_false]
          exact ⟨fun c e => (by cases e), fun st' u' e => by cases e; exact ⟨hj, fun _ => by simp⟩⟩
  intro u hu
  obtain ⟨h1, h2⟩ := loop m.toNat none 0 u hu (by omega)
  simp only [denDeco, denRepeat, loopFuel]
  rw [if_neg (by omega)]
  rw [show (m - 0).toNat = m.toNat by omega]
  cases hl : denLoop (fun s => s = .failure) m f m.toNat none 0 u with
  | error c => exact ⟨fun c' e => (by cases e; exact h1 c hl), fun st u' e => by cases e⟩
  | ok r =>
    obtain ⟨st, u1⟩ := r
    obtain ⟨h3, h4⟩ := h2 st u1 hl
    cases st with
    | none => exact absurd rfl (h4 (.inl hm))
    | some st => exact ⟨fun c e => (by cases e), fun st' u' e => by cases e; exact h3⟩
end

theorem safe_leaf {P : Sympy} {Bad : Crash → Prop} {I : LS → Prop} {J : Status → LS → Prop} {i : Nat} {l : LeafName}
    (he : ∀ s c, I s → act P l s = .error c → Bad (.leaf c)) (ho : ∀ s st s', I s → act P l s = .ok (st, s') → J st s') :
    Safe Bad I J (den (env P) 0 (lf i l)) := by
  intro s hs
  simp only [lf, den, env]
  cases h : act P l s with
  | error c => exact ⟨fun c' e => (by cases e; exact he s c hs h), fun st u' e => by cases e⟩
  | ok r => exact ⟨fun c' e => (by cases e), fun st u' e => by cases e; exact ho s st u' hs h⟩

/-- the tree from its leaves: `I` holds between attempts, `W` between the assigner and the work tools, the others after a successful identification -/
theorem safe_topnode {P : Sympy} {Bad : Crash → Prop} {I W A T S M C R : LS → Prop}
    (hsub : ∀ i, Safe Bad I (fun _ => I) (den (env P) 0 (lf i .subTrans)))
    (hasg : ∀ i, Safe Bad I (fun st s => if st = .success then W s else I s) (den (env P) 0 (lf i .asgn)))
    (hsum : ∀ i, Safe Bad W (fun _ => W) (den (env P) 0 (lf i .sumID)))
    (hai : ∀ i, Safe Bad W (fun st s => if st = .success then A s else W s) (den (env P) 0 (lf i .algID)))
    (has : ∀ i, Safe Bad A (fun _ => W) (den (env P) 0 (lf i .algSolver)))
    (hti : ∀ i, Safe Bad W (fun st s => if st = .success then T s else W s) (den (env P) 0 (lf i .tanID)))
    (hts : ∀ i, Safe Bad T (fun _ => R) (den (env P) 0 (lf i .tanSolver)))
    (hsi : ∀ i, Safe Bad R (fun st s => if st = .success then S s else R s) (den (env P) 0 (lf i .scID)))
    (hss : ∀ i, Safe Bad S (fun _ => R) (den (env P) 0 (lf i .scSolver)))
    (hWR : ∀ s, W s → R s)
    (hrk : ∀ i, Safe Bad R (fun _ => W) (den (env P) 0 (lf i .rank)))
    (hRW : ∀ s, R s → W s)
    (hmi : ∀ i, Safe Bad W (fun st s => if st = .success then M s else W s) (den (env P) 0 (lf i .simuID)))
    (hms : ∀ i, Safe Bad M (fun _ => W) (den (env P) 0 (lf i .simuSolver)))
    (hci : ∀ i, Safe Bad W (fun st s => if st = .success then C s else W s) (den (env P) 0 (lf i .sacID)))
    (hcs : ∀ i, Safe Bad C (fun _ => W) (den (env P) 0 (lf i .sacSolver)))
    (hx : ∀ i, Safe Bad W (fun _ => W) (den (env P) 0 (lf i .x2z2)))
    (hWI : ∀ s, W s → I s)
    (hup : ∀ i, Safe Bad I (fun _ => I) (den (env P) 0 (lf i .updateL)))
    (hcd : ∀ i, Safe Bad I (fun _ => I) (den (env P) 0 (lf i .compDetect))) :
    Safe Bad I (fun _ => I) (den (env P) 0 topnode) := by
  have pair : ∀ {X Y Z : LS → Prop} {i j k : Nat} {a b : LeafName},
      Safe Bad X (fun st s => if st = .success then Y s else Z s) (den (env P) 0 (lf j a)) →
      Safe Bad Y (fun _ => Z) (den (env P) 0 (lf k b)) → Safe Bad X (fun _ => Z) (den (env P) 0 (sq i [lf j a, lf k b])) := by
    intro X Y Z i j k a b h1 h2
    simp only [sq]
    rw [den_comp]
    simp only [denComp, dens]
    refine safe_seq_cons h1 (fun st s hn hj => by simpa [hn] using hj) ?_
    refine safe_seq_cons (h2.mono (fun s h => by simpa using h) fun _ _ h => h) (fun _ _ _ h => h) (safe_seq_nil fun _ h => h)
  have hsc : Safe Bad W (fun _ => W) (den (env P) 0 scTan) := by
    simp only [scTan, sq]
    rw [den_comp]
    simp only [denComp, dens]
    refine safe_seq_cons (J := fun _ => R) ?_ (fun _ _ _ h => hRW _ h) (safe_seq_cons (hrk _) (fun _ _ _ h => h) (safe_seq_nil fun _ h => h))
    rw [den_comp]
    simp only [denComp, dens]
    refine safe_or_cons (J := R) ?_ (fun acc => ?_) _
    · exact pair (Z := R) ((hti 2).mono (fun _ h => h) (fun st s h => by
        by_cases hs : st = .success
        · simpa [hs] using h
        · simp only [hs, if_false] at h ⊢; exact hWR _ h)) (hts 3)
    · exact safe_or_cons (pair (hsi 8) (hss 9)) (fun acc => safe_or_nil) acc
  have hw : Safe Bad W (fun _ => W) (den (env P) 0 worktools) := by
    simp only [worktools]
    rw [den_comp]
    simp only [denComp, dens]
    refine safe_pri_cons (pair (hai _) (has _)) (fun _ _ _ h => h) ?_
    refine safe_pri_cons hsc (fun _ _ _ h => h) ?_
    refine safe_pri_cons (pair (hmi _) (hms _)) (fun _ _ _ h => h) ?_
    refine safe_pri_cons (pair (hci _) (hcs _)) (fun _ _ _ h => h) ?_
    exact safe_pri_cons (hx _) (fun _ _ _ h => h) (safe_pri_nil fun _ h => h)
  have ha : Safe Bad I (fun _ => I) (den (env P) 0 attempt) := by
    simp only [attempt, sq]
    rw [den_comp]
    simp only [denComp, dens]
    refine safe_seq_cons (hasg _) (fun st s hn hj => by simpa [hn] using hj) ?_
    refine safe_seq_cons (J := fun _ => W) ((hsum _).mono (fun s h => by simpa using h) fun _ _ h => h) (fun _ _ _ h => hWI _ h) ?_
    exact safe_seq_cons hw (fun _ _ _ h => hWI _ h) (safe_seq_nil fun _ h => hWI _ h)
  simp only [topnode]
  rw [den]
  refine safe_until ?_ (by decide)
  simp only [solveRoutine, sq]
  rw [den_comp]
  simp only [denComp, dens]
  refine safe_seq_cons (hsub _) (fun _ _ _ h => h) ?_
  refine safe_seq_cons (J := fun _ => I) ?_ (fun _ _ _ h => h) ?_
  · simp only [subtree]; rw [den]; exact safe_until ha (by decide)
  refine safe_seq_cons (hup _) (fun _ _ _ h => h) ?_
  exact safe_seq_cons (hcd _) (fun _ _ _ h => h) (safe_seq_nil fun _ h => h)

end Verif.Solver
