import Verif.BT.Spec
/-! Helper lemmas for `Verif.BT.Props` (refinement of the engine to the big-step specification). -/
namespace Verif.BT
variable {σ L : Type}

@[simp] theorem upd_same {α} (f : Id → α) (i : Id) (v : α) : upd f i v i = v := by simp [upd]
theorem upd_other {α} (f : Id → α) {i j : Id} (v : α) (h : j ≠ i) : upd f i v j = f j := by
  simp [upd, h]

theorem Acc.refl (S T : List Id) (st : St σ) (hc : ∀ j ∈ S, st.isOpen j = false) : Acc S T st [] st := by
  constructor <;> simp_all

theorem Acc.trans {S T : List Id} {st st1 st2 : St σ} {tr tr'} (h : Acc S T st tr st1)
    (h' : Acc S T st1 tr' st2) : Acc S T st (tr ++ tr') st2 where
  stack := by rw [h'.stack, h.stack]
  count := by rw [h'.count, h.count]; simp; omega
  ticks j := by rw [h'.ticks, h.ticks]; simp; omega
  succ j := by rw [h'.succ, h.succ]; simp; omega
  log := by rw [h'.log, h.log]; simp
  closed := h'.closed
  frameOpen j hj := by rw [h'.frameOpen j hj, h.frameOpen j hj]
  frameCnt j hj := by rw [h'.frameCnt j hj, h.frameCnt j hj]
  frameStart j hj := by rw [h'.frameStart j hj, h.frameStart j hj]
  frameCost j hj := by rw [h'.frameCost j hj, h.frameCost j hj]

theorem Acc.mono {S T S' T' : List Id} {st st1 : St σ} {tr} (h : Acc S T st tr st1)
    (hS : ∀ j ∈ S, j ∈ S') (hT : ∀ j ∈ T, j ∈ T') (hc : ∀ j ∈ S', st.isOpen j = false) :
    Acc S' T' st tr st1 where
  stack := h.stack
  count := h.count
  ticks := h.ticks
  succ := h.succ
  log := h.log
  closed j hj := by
    by_cases hs : j ∈ S
    · exact h.closed j hs
    · rw [h.frameOpen j hs]; exact hc j hj
  frameOpen j hj := h.frameOpen j (fun hs => hj (hS j hs))
  frameCnt j hj := h.frameCnt j (fun hs => hj (hT j hs))
  frameStart j hj := h.frameStart j (fun hs => hj (hT j hs))
  frameCost j hj := h.frameCost j (fun hs => hj (hT j hs))

/-- Changing the user state, and the `Cost`/`i`/`startTime` of nodes in `T`, is not accounted. -/
theorem Acc.tweak {S T : List Id} {st st1 : St σ} {tr} (h : Acc S T st tr st1) (u : σ)
    {cost : Id → Int} {cnt start : Id → Option Int}
    (h1 : ∀ j, j ∉ T → cost j = st1.cost j) (h2 : ∀ j, j ∉ T → cnt j = st1.cnt j)
    (h3 : ∀ j, j ∉ T → start j = st1.start j) :
    Acc S T st tr { st1 with user := u, cost := cost, cnt := cnt, start := start } where
  stack := h.stack
  count := h.count
  ticks := h.ticks
  succ := h.succ
  log := h.log
  closed := h.closed
  frameOpen := h.frameOpen
  frameCnt j hj := by rw [← h.frameCnt j hj, ← h2 j hj]
  frameStart j hj := by rw [← h.frameStart j hj, ← h3 j hj]
  frameCost j hj := by rw [← h.frameCost j hj, ← h1 j hj]

theorem Acc.cost {S T : List Id} {st st1 : St σ} {tr} (h : Acc S T st tr st1) {i : Id} (hi : i ∈ T)
    (v : Int) : Acc S T st tr { st1 with cost := upd st1.cost i v } :=
  h.tweak st1.user (fun _ hj => upd_other _ _ (fun e => hj (e ▸ hi))) (fun _ _ => rfl) (fun _ _ => rfl)

theorem Acc.cntUpd {S T : List Id} {st st1 : St σ} {tr} (h : Acc S T st tr st1) {i : Id} (hi : i ∈ T)
    (v : Option Int) : Acc S T st tr { st1 with cnt := upd st1.cnt i v } :=
  h.tweak st1.user (fun _ _ => rfl) (fun _ hj => upd_other _ _ (fun e => hj (e ▸ hi))) (fun _ _ => rfl)

/-! ### `execute` -/

/-- The hooks that occur. -/
inductive Hook (E : Env σ L) (id : Id) : (St σ → St σ) → Prop where
  | none : Hook E id (fun st => st)
  | deco (k : DKind) : Hook E id (openHook E k id)

theorem Hook.spec {E : Env σ L} {id : Id} {hook : St σ → St σ} (h : Hook E id hook) (st : St σ) :
    ∃ u cnt start, hook st = { st with user := u, cnt := cnt, start := start } ∧
      (∀ j, j ≠ id → cnt j = st.cnt j) ∧ (∀ j, j ≠ id → start j = st.start j) := by
  cases h with
  | none => exact ⟨st.user, st.cnt, st.start, rfl, fun _ _ => rfl, fun _ _ => rfl⟩
  | deco k =>
    cases k <;> simp only [openHook]
    · exact ⟨st.user, st.cnt, st.start, rfl, fun _ _ => rfl, fun _ _ => rfl⟩
    all_goals first
      | exact ⟨st.user, _, st.start, rfl, fun j hj => upd_other _ _ hj, fun _ _ => rfl⟩
      | exact ⟨_, st.cnt, _, rfl, fun _ _ => rfl, fun j hj => upd_other _ _ hj⟩

/-- State in which the class's `tick` method runs. -/
def bodyStart (id : Id) (hook : St σ → St σ) (st : St σ) : St σ :=
  countTick id (openIfClosed id hook (enter id st))

theorem execute_acc {E : Env σ L} {id : Id} {hook : St σ → St σ} {body : St σ → Res σ} {st : St σ}
    {S : List Id} (hh : Hook E id hook) (hid : id ∉ S)
    (hcl : st.isOpen id = false)
    {s : Status} {st1 : St σ} {tr : List Ev}
    (hb : body (bodyStart id hook st) = .ok (s, st1)) (hs : s ≠ .running)
    (hacc : Acc S (id :: S) (bodyStart id hook st) tr st1) :
    ∃ st2, execute id hook body st = .ok (s, st2) ∧ st2.user = st1.user ∧
      (∀ j, st2.cost j = st1.cost j) ∧ st2.totalCost = st1.totalCost + st1.cost id ∧
      Acc (id :: S) (id :: S) st (tr ++ [(id, s)]) st2 := by
  obtain ⟨u, cnt, start, hst, hc, hs'⟩ :=
    hh.spec { (enter id st) with isOpen := upd (enter id st).isOpen id true }
  have hbs : bodyStart id hook st = { st with
      count := st.count + 1, stack := id :: st.stack, isOpen := upd st.isOpen id true,
      user := u, cnt := cnt, start := start,
      ticksAll := upd st.ticksAll id (st.ticksAll id + 1) } := by
    simp only [bodyStart, openIfClosed]
    rw [if_neg (by simp [enter, hcl]), hst]
    simp [countTick, enter]
  simp only [enter] at hc hs'
  have hstk : st1.stack = id :: st.stack := by rw [hacc.stack, hbs]
  have key : ∃ st2, closeIfDone id s (afterTick id s st1) = .ok st2 ∧ st2.user = st1.user ∧
      (∀ j, st2.cost j = st1.cost j) ∧ st2.totalCost = st1.totalCost + st1.cost id ∧
      st2.stack = st.stack ∧ st2.count = st1.count ∧ st2.ticksAll = st1.ticksAll ∧
      st2.cnt = st1.cnt ∧ st2.start = st1.start ∧ st2.isOpen = upd st1.isOpen id false ∧
      (∀ j, st2.nSuccess j = st1.nSuccess j + if (id, s) = (j, Status.success) then 1 else 0) ∧
      st2.log = (if s = .success ∨ s = .failure then [(s, id)] else []) ++ st1.log := by
    cases s with
    | running => exact absurd rfl hs
    | success =>
      refine ⟨_, by simp only [closeIfDone, afterTick]; rw [if_neg (by simp)]; simp only [hstk]; rfl, ?_⟩
      refine ⟨rfl, fun _ => rfl, rfl, rfl, rfl, rfl, rfl, rfl, rfl, ?_, by simp⟩
      intro j; by_cases h : j = id
      · subst h; simp
      · simp [upd_other _ _ h, Ne.symm h]
    | failure =>
      refine ⟨_, by simp only [closeIfDone, afterTick]; rw [if_neg (by simp)]; simp only [hstk]; rfl, ?_⟩
      exact ⟨rfl, fun _ => rfl, rfl, rfl, rfl, rfl, rfl, rfl, rfl, by simp, by simp⟩
    | error =>
      refine ⟨_, by simp only [closeIfDone, afterTick]; rw [if_neg (by simp)]; simp only [hstk]; rfl, ?_⟩
      exact ⟨rfl, fun _ => rfl, rfl, rfl, rfl, rfl, rfl, rfl, rfl, by simp, by simp⟩
  obtain ⟨st2, hst2, hu, hco, htc, hsk, hct, htk, hcn, hsta, hop, hsu, hlog⟩ := key
  refine ⟨st2, ?_, hu, hco, htc, ?_⟩
  · simp only [execute]
    rw [show countTick id (openIfClosed id hook (enter id st)) = bodyStart id hook st from rfl, hb]
    simp only [hst2]
  · constructor
    · exact hsk
    · rw [hct, hacc.count, hbs]; simp; omega
    · intro j; rw [htk, hacc.ticks, hbs]
      by_cases h : j = id
      · subst h; simp; omega
      · simp [upd_other _ _ h, Ne.symm h]
    · intro j; rw [hsu, hacc.succ, hbs]
      simp [List.filter_append, List.filter_cons]
      split <;> simp <;> omega
    · rw [hlog, hacc.log, hbs]
      simp only [List.filter_append, List.map_append, List.reverse_append, List.append_assoc]
      congr 1
      cases s <;> simp
    · intro j hj; rw [hop]
      by_cases h : j = id
      · subst h; simp
      · rw [upd_other _ _ h]; exact hacc.closed j (by simpa [h] using hj)
    · intro j hj; rw [hop]
      have hj1 : j ≠ id := fun h => hj (by simp [h])
      have hj2 : j ∉ S := fun h => hj (by simp [h])
      rw [upd_other _ _ hj1, hacc.frameOpen j hj2, hbs]; simp [upd_other _ _ hj1]
    · intro j hj; rw [hcn, hacc.frameCnt j hj, hbs]
      exact hc j (fun h => hj (by simp [h]))
    · intro j hj; rw [hsta, hacc.frameStart j hj, hbs]
      exact hs' j (fun h => hj (by simp [h]))
    · intro j hj; rw [hco, hacc.frameCost j hj, hbs]

end Verif.BT
