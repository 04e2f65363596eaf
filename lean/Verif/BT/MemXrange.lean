import Verif.BT.Props
/-!
# C12: MemSequence and MemPriority where `xrange` is defined

`C12_mem_composites_raise` is about Python 3. Under Python 2, for which b3 was written, or in a program that defines `builtins.xrange = range`, the same
code runs. This file models it there.
-/
namespace Verif.BT
variable {σ L : Type}

/-! ## Model -/

/-- memsequence.py:15-22 (`go` is SUCCESS), mempriority.py:15-22 (`go` is FAILURE): the rest of the loop, from child number `i`. The key `running_child` of a
node is kept in the field `cnt`, which holds the key `i` of the decorators; no class uses both. -/
def memTick (go : Status) (self : Id) : Nat → List (Child σ) → St σ → Res σ
  | _, [], st => .ok (go, st)
  | i, c :: cs, st =>
    match c.run st with
    | .error e => .error e
    | .ok (s, st1) =>
      if s ≠ go then
        if s = .running then .ok (s, { st1 with cnt := upd st1.cnt self (some i) }) else .ok (s, st1)
      else memTick go self (i + 1) cs st1

/-- memsequence.py:12-15, mempriority.py:12-15. (`running_child` is never negative, see `C12_xrange_resumes`.) -/
def memBody (go : Status) (self : Id) (cs : List (Child σ)) (st : St σ) : Res σ :=
  match st.cnt self with
  | none => .error .typeError
  | some k => memTick go self k.toNat (cs.drop k.toNat) st

/-- the `tick` methods of the composites -/
def compTickX (k : CKind) (self : Id) (cs : List (Child σ)) (st : St σ) : Res σ :=
  match k with
  | .memSequence => memBody .success self cs st
  | .memPriority => memBody .failure self cs st
  | .sequence => compTick .sequence self cs st
  | .priority => compTick .priority self cs st
  | .orNode => compTick .orNode self cs st

/-- the `open` methods of the composites: memsequence.py:9-10, mempriority.py:9-10; the others inherit the empty one -/
def openHookX (k : CKind) (id : Id) (st : St σ) : St σ :=
  match k with
  | .memSequence => { st with cnt := upd st.cnt id (some 0) }
  | .memPriority => { st with cnt := upd st.cnt id (some 0) }
  | .sequence => st
  | .priority => st
  | .orNode => st

mutual
/-- `node._execute(tick)` (basenode.py:122-134) for every kind of node -/
def execX (E : Env σ L) (fuel : Nat) : Tree L → St σ → Res σ
  | .leaf id a => execute id (fun st => st) fun st =>
      match E.act a st.user with
      | .error c => .error (.leaf c)
      | .ok (s, u) => .ok (s, { st with user := u })
  | .comp k id cs => execute id (openHookX k id) (compTickX k id (execsX E fuel cs))
  | .deco k id c => execute id (openHook E k id) (decoTick E fuel k id (execX E fuel c))
  | .emptyDeco k id => execute id (openHook E k id) fun st => .ok (.error, st)
/-- the children of a composite (composite.py:10-12) -/
def execsX (E : Env σ L) (fuel : Nat) : List (Tree L) → List (Child σ)
  | [] => []
  | c :: cs => ⟨c.id, execX E fuel c⟩ :: execsX E fuel cs
end

/-- A history of ticks (behaviortree.py:109-150) of one tree; the world may change between them. -/
def ticksX (E : Env σ L) (fuel : Nat) (t : Tree L) : List (σ → σ) → St σ → Except Crash (List Status × St σ)
  | [], st => .ok ([], st)
  | w :: ws, st =>
    match execX E fuel t { st with user := w st.user, stack := [], count := 0 } with
    | .error e => .error e
    | .ok (s, st1) =>
      match ticksX E fuel t ws st1 with
      | .error e => .error e
      | .ok (ss, st2) => .ok (s :: ss, st2)

/-! ## Specification -/

/-- Children are executed from left to right as long as they answer `go`. Either all do, and the status is `go`; or `s` is the answer of the first that does
not. `n` children answered `go`. Between two children nothing changes but the parent's own `Cost`. -/
inductive Ran (E : Env σ L) (fuel : Nat) (parent : Id) (go : Status) : List (Tree L) → St σ → Status → Nat → St σ → Prop where
  | all {st} : Ran E fuel parent go [] st go 0 st
  | stop {c cs st s st1 v} : execX E fuel c st = .ok (s, st1) → s ≠ go →
      Ran E fuel parent go (c :: cs) st s 0 { st1 with cost := upd st1.cost parent v }
  | next {c cs st st1 v s n st2} : execX E fuel c st = .ok (go, st1) →
      Ran E fuel parent go cs { st1 with cost := upd st1.cost parent v } s n st2 → Ran E fuel parent go (c :: cs) st s (n + 1) st2

/-- A history of ticks of a node with children `cs`. A tick starts with child `k`, the next one with the child that answered RUNNING, or with the first if
none did. Apart from that only the bookkeeping of the node and of the tick changes. -/
inductive Resumes (E : Env σ L) (fuel : Nat) (id : Id) (go : Status) (cs : List (Tree L)) : Nat → List (σ → σ) → St σ → List Status → St σ → Prop where
  | nil {k st} : Resumes E fuel id go cs k [] st [] st
  | tick {k w ws st st0 s n st1 st2 ss st'} : SameOff id { st with user := w st.user } st0 →
      Ran E fuel id go (cs.drop k) st0 s n st1 → SameOff id st1 st2 →
      Resumes E fuel id go cs (if s = .running then k + n else 0) ws st2 ss st' → Resumes E fuel id go cs k (w :: ws) st (s :: ss) st'

/-! ## Lemmas -/

variable {E : Env σ L} {fuel : Nat}

/-- (proof) running does not touch the memory of node `j` -/
def Keeps (j : Id) (run : St σ → Res σ) : Prop := ∀ st s st', run st = .ok (s, st') → st'.isOpen j = st.isOpen j ∧ st'.cnt j = st.cnt j

theorem keeps_hook {id j : Id} {hook : St σ → St σ} (hj : j ≠ id)
    (hh : ∀ st, (hook st).isOpen j = st.isOpen j ∧ (hook st).cnt j = st.cnt j) (st : St σ) :
    (bodyStart id hook st).isOpen j = st.isOpen j ∧ (bodyStart id hook st).cnt j = st.cnt j := by
  simp only [bodyStart, openIfClosed, countTick]
  split
  · exact ⟨rfl, rfl⟩
  · have := hh { enter id st with isOpen := upd (enter id st).isOpen id true }
    rw [this.1, this.2]
    exact ⟨upd_other _ _ hj, rfl⟩

theorem keeps_execute {id j : Id} {hook : St σ → St σ} {body : St σ → Res σ} (hj : j ≠ id)
    (hh : ∀ st, (hook st).isOpen j = st.isOpen j ∧ (hook st).cnt j = st.cnt j) (hb : Keeps j body) : Keeps j (execute id hook body) := by
  intro st s st' h
  obtain ⟨st1, h1, h2⟩ := execute_ok_inv h
  obtain ⟨a, b⟩ := hb _ _ _ h1
  obtain ⟨c, d⟩ := keeps_hook hj hh st
  exact ⟨by rw [h2.isOpen j hj, a, c], by rw [h2.cnt j hj, b, d]⟩

theorem keeps_memTick {go : Status} {self j : Id} (hj : j ≠ self) : ∀ (cs : List (Child σ)) (i : Nat), (∀ c ∈ cs, Keeps j c.run) → Keeps j (memTick go self i cs)
  | [], i, _ => fun st s st' h => by cases h; exact ⟨rfl, rfl⟩
  | c :: cs, i, hc => fun st s st' h => by
    simp only [memTick] at h
    split at h
    · cases h
    · rename_i s1 st1 hr
      obtain ⟨a, b⟩ := hc c (by simp) _ _ _ hr
      split at h
      · split at h
        · cases h; exact ⟨a, by rw [← b]; exact upd_other _ _ hj⟩
        · cases h; exact ⟨a, b⟩
      · obtain ⟨a', b'⟩ := keeps_memTick hj cs (i + 1) (fun c hc' => hc c (by simp [hc'])) _ _ _ h
        exact ⟨a'.trans a, b'.trans b⟩

theorem keeps_seqTick {self j : Id} : ∀ (cs : List (Child σ)) (tmp : Int), (∀ c ∈ cs, Keeps j c.run) → Keeps j (seqTick self cs tmp)
  | [], tmp, _ => fun st s st' h => by cases h; exact ⟨rfl, rfl⟩
  | c :: cs, tmp, hc => fun st s st' h => by
    simp only [seqTick] at h
    split at h
    · cases h
    · rename_i s1 st1 hr
      obtain ⟨a, b⟩ := hc c (by simp) _ _ _ hr
      split at h
      · obtain ⟨a', b'⟩ := keeps_seqTick cs _ (fun c hc' => hc c (by simp [hc'])) _ _ _ h
        exact ⟨a'.trans a, b'.trans b⟩
      · cases h; exact ⟨a, b⟩

theorem keeps_priTick {self j : Id} : ∀ (cs : List (Child σ)), (∀ c ∈ cs, Keeps j c.run) → Keeps j (priTick self cs)
  | [], _ => fun st s st' h => by cases h; exact ⟨rfl, rfl⟩
  | c :: cs, hc => fun st s st' h => by
    simp only [priTick] at h
    split at h
    · cases h
    · rename_i s1 st1 hr
      obtain ⟨a, b⟩ := hc c (by simp) _ _ _ hr
      split at h
      · obtain ⟨a', b'⟩ := keeps_priTick cs (fun c hc' => hc c (by simp [hc'])) _ _ _ h
        exact ⟨a'.trans a, b'.trans b⟩
      · cases h; exact ⟨a, b⟩

theorem keeps_orTick {self j : Id} : ∀ (cs : List (Child σ)) (acc : Status), (∀ c ∈ cs, Keeps j c.run) → Keeps j (orTick self cs acc)
  | [], _, _ => fun st s st' h => by cases h; exact ⟨rfl, rfl⟩
  | c :: cs, acc, hc => fun st s st' h => by
    simp only [orTick] at h
    split at h
    · cases h
    · rename_i s1 st1 hr
      obtain ⟨a, b⟩ := hc c (by simp) _ _ _ hr
      obtain ⟨a', b'⟩ := keeps_orTick cs _ (fun c hc' => hc c (by simp [hc'])) _ _ _ h
      exact ⟨a'.trans a, b'.trans b⟩

theorem keeps_compTickX {k : CKind} {self j : Id} (hj : j ≠ self) {cs : List (Child σ)} (hc : ∀ c ∈ cs, Keeps j c.run) : Keeps j (compTickX k self cs) := by
  intro st s st' h
  have hm : ∀ go, memBody go self cs st = .ok (s, st') → st'.isOpen j = st.isOpen j ∧ st'.cnt j = st.cnt j := fun go h => by
    unfold memBody at h
    split at h
    · cases h
    · exact keeps_memTick hj _ _ (fun c hc' => hc c (List.mem_of_mem_drop hc')) _ _ _ h
  cases k with
  | sequence => exact keeps_seqTick _ _ hc _ _ _ h
  | priority => exact keeps_priTick cs hc { st with cost := upd st.cost self 0 } _ _ h
  | orNode => exact keeps_orTick cs .failure hc { st with cost := upd st.cost self 0 } _ _ h
  | memSequence => exact hm _ h
  | memPriority => exact hm _ h

theorem keeps_while {j : Id} {cont : Status → Bool} {m : Int} {run : St σ → Res σ} (hr : Keeps j run) :
    ∀ (fuel : Nat) (last : Option Status) (i : Int) (st : St σ) (x : Option Status × Int × St σ),
      whileLoop cont m run fuel last i st = .ok x → x.2.2.isOpen j = st.isOpen j ∧ x.2.2.cnt j = st.cnt j
  | fuel, last, i, st, x, h => by
    unfold whileLoop at h
    split at h
    · cases fuel with
      | zero => cases h
      | succ fuel =>
        dsimp only at h
        split at h
        · cases h
        · rename_i s st1 he
          obtain ⟨a, b⟩ := hr _ _ _ he
          split at h
          · obtain ⟨a', b'⟩ := keeps_while hr fuel _ _ _ _ h
            exact ⟨a'.trans a, b'.trans b⟩
          · cases h; exact ⟨a, b⟩
    · cases h; exact ⟨rfl, rfl⟩

theorem keeps_repeat {j self : Id} (hj : j ≠ self) {cont : Status → Bool} {init : Option Status} {m : Int} {run : St σ → Res σ} (hr : Keeps j run) :
    Keeps j (repeatTick cont init fuel m self run) := by
  intro st s st' h
  unfold repeatTick at h
  split at h
  · cases h
  · split at h
    · cases h
    · rename_i hw
      obtain ⟨a, b⟩ := keeps_while hr _ _ _ _ _ hw
      dsimp only at h
      split at h
      · cases h
      · cases h; exact ⟨a, by rw [← b]; exact upd_other _ _ hj⟩

theorem keeps_deco {j self : Id} (hj : j ≠ self) {k : DKind} {run : St σ → Res σ} (hr : Keeps j run) : Keeps j (decoTick E fuel k self run) := by
  cases k with
  | inverter =>
    intro st s st' h
    simp only [decoTick] at h
    split at h
    · cases h
    · rename_i he; cases h; exact hr _ _ _ he
  | limiter m =>
    intro st s st' h
    simp only [decoTick] at h
    split at h
    · cases h
    · split at h
      · split at h
        · cases h
        · rename_i he
          obtain ⟨a, b⟩ := hr _ _ _ he
          split at h
          · cases h; exact ⟨a, by rw [← b]; exact upd_other _ _ hj⟩
          · cases h; exact ⟨a, b⟩
      · cases h; exact ⟨rfl, rfl⟩
  | repeater m => exact keeps_repeat hj hr
  | untilFailure m => exact keeps_repeat hj hr
  | untilSuccess m => exact keeps_repeat hj hr
  | maxTime t =>
    intro st s st' h
    simp only [decoTick] at h
    split at h
    · cases h
    · split at h
      · cases h
      · rename_i he
        obtain ⟨a, b⟩ := hr _ _ _ he
        split at h <;> (cases h; exact ⟨a, b⟩)

theorem keeps_openHook {j id : Id} (hj : j ≠ id) (k : DKind) (st : St σ) :
    (openHook E k id st).isOpen j = st.isOpen j ∧ (openHook E k id st).cnt j = st.cnt j := by
  cases k <;> simp [openHook, upd_other _ _ hj]

theorem keeps_openHookX {j id : Id} (hj : j ≠ id) (k : CKind) (st : St σ) :
    (openHookX k id st).isOpen j = st.isOpen j ∧ (openHookX k id st).cnt j = st.cnt j := by
  cases k <;> simp [openHookX, upd_other _ _ hj]

mutual
theorem keeps_execX {j : Id} : ∀ t : Tree L, j ∉ t.ids → Keeps j (execX E fuel t)
  | .leaf i a, h => by
    simp only [Tree.ids, List.mem_singleton] at h
    simp only [execX]
    refine keeps_execute h (fun _ => ⟨rfl, rfl⟩) fun st s st' hr => ?_
    split at hr
    · cases hr
    · cases hr; exact ⟨rfl, rfl⟩
  | .comp k i cs, h => by
    simp only [Tree.ids, List.mem_cons, not_or] at h
    simp only [execX]
    exact keeps_execute h.1 (keeps_openHookX h.1 k) (keeps_compTickX h.1 (keeps_execsX cs h.2))
  | .deco k i c, h => by
    simp only [Tree.ids, List.mem_cons, not_or] at h
    simp only [execX]
    exact keeps_execute h.1 (keeps_openHook h.1 k) (keeps_deco h.1 (keeps_execX c h.2))
  | .emptyDeco k i, h => by
    simp only [Tree.ids, List.mem_singleton] at h
    simp only [execX]
    exact keeps_execute h (keeps_openHook h k) fun st s st' hr => by cases hr; exact ⟨rfl, rfl⟩
theorem keeps_execsX {j : Id} : ∀ cs : List (Tree L), j ∉ idsList cs → ∀ c ∈ execsX E fuel cs, Keeps j c.run
  | [], _ => fun c hc => by cases hc
  | c :: cs, h => by
    simp only [idsList, List.mem_append, not_or] at h
    intro d hd
    simp only [execsX, List.mem_cons] at hd
    rcases hd with rfl | hd
    · exact keeps_execX c h.1
    · exact keeps_execsX cs h.2 d hd
end

theorem execsX_drop : ∀ (cs : List (Tree L)) (k : Nat), (execsX E fuel cs).drop k = execsX E fuel (cs.drop k)
  | [], k => by simp [execsX]
  | c :: cs, 0 => rfl
  | c :: cs, k + 1 => by simp only [execsX, List.drop_succ_cons]; exact execsX_drop cs k

theorem upd_self {α : Type} (f : Id → α) (i : Id) : upd f i (f i) = f := by
  funext j
  by_cases h : j = i
  · subst h; exact upd_same _ _ _
  · exact upd_other _ _ h

/-- (proof) the loop of the two classes does what the specification says -/
theorem memTick_ran {go : Status} (hgo : go ≠ .running) {id : Id} : ∀ (cs : List (Tree L)) (i : Nat), id ∉ idsList cs → ∀ (st : St σ) (s : Status) (st' : St σ),
    memTick go id i (execsX E fuel cs) st = .ok (s, st') →
    ∃ n st1, Ran E fuel id go cs st s n st1 ∧ SameOff id st1 st' ∧ st'.isOpen id = st.isOpen id ∧ (s = .running → st'.cnt id = some ((i + n : Nat) : Int))
  | [], i, _, st, s, st', h => by
    cases h
    exact ⟨0, st, .all, SameOff.refl _ _, rfl, fun e => absurd e hgo⟩
  | c :: cs, i, hi, st, s, st', h => by
    simp only [idsList, List.mem_append, not_or] at hi
    simp only [execsX, memTick] at h
    split at h
    · cases h
    · rename_i s1 st1 hr
      obtain ⟨a, b⟩ := keeps_execX c hi.1 _ _ _ hr
      have e : { st1 with cost := upd st1.cost id (st1.cost id) } = st1 := by rw [upd_self]
      split at h
      · rename_i hs
        have hst := Ran.stop (E := E) (fuel := fuel) (parent := id) (go := go) (cs := cs) (v := st1.cost id) hr hs
        rw [e] at hst
        split at h
        · cases h
          exact ⟨0, st1, hst, sameOff_cnt _ _ _, a, fun _ => upd_same _ _ _⟩
        · rename_i hrun
          cases h
          exact ⟨0, _, hst, SameOff.refl _ _, a, fun e => absurd e hrun⟩
      · rename_i hs
        have hs : s1 = go := by simpa using hs
        subst hs
        obtain ⟨n, st2, h1, h2, h3, h4⟩ := memTick_ran hgo cs (i + 1) hi.2 _ _ _ h
        refine ⟨n + 1, st2, .next (v := st1.cost id) hr (by rw [e]; exact h1), h2, h3.trans a, fun hs => ?_⟩
        rw [h4 hs]; congr 2; omega

/-- (proof) the class of a node that resumes, and the status after which it goes on -/
inductive Mem : CKind → Status → Prop where
  | sequence : Mem .memSequence .success
  | priority : Mem .memPriority .failure

theorem close_open {id : Id} {s : Status} {st1 st2 : St σ} (h : closeIfDone id s (afterTick id s st1) = .ok st2) :
    (s = .running → st2.isOpen id = st1.isOpen id ∧ st2.cnt id = st1.cnt id) ∧ (s ≠ .running → st2.isOpen id = false) := by
  cases s
  case running => simp [closeIfDone, afterTick] at h; rw [← h]; simp
  all_goals
    simp only [closeIfDone, afterTick] at h
    rw [if_neg (by simp)] at h
    split at h
    · cases h
    · simp only [Except.ok.injEq] at h; rw [← h]; simp

theorem mem_exec {k : CKind} {go : Status} (hk : Mem k go) {id : Id} {cs : List (Tree L)} (hi : id ∉ idsList cs) {st : St σ} {i : Nat}
    (hst : st.isOpen id = true → st.cnt id = some (i : Int)) (hcl : st.isOpen id = false → i = 0) {s : Status} {st' : St σ}
    (h : execX E fuel (.comp k id cs) st = .ok (s, st')) :
    ∃ n st0 st1, SameOff id st st0 ∧ Ran E fuel id go (cs.drop i) st0 s n st1 ∧ SameOff id st1 st' ∧
      (st'.isOpen id = true ↔ s = .running) ∧ (s = .running → st'.cnt id = some ((i + n : Nat) : Int)) := by
  simp only [execX, execute] at h
  have hb : compTickX k id (execsX E fuel cs) = memBody go id (execsX E fuel cs) := by cases hk <;> (funext x; simp only [compTickX])
  have ho : ∀ x : St σ, openHookX k id x = { x with cnt := upd x.cnt id (some 0) } := fun x => by cases hk <;> rfl
  have hgo : go ≠ .running := by cases hk <;> simp
  rw [hb] at h
  generalize hs0 : countTick id (openIfClosed id (openHookX k id) (enter id st)) = st0 at h
  have h0 : SameOff id st st0 ∧ st0.cnt id = some (i : Int) ∧ st0.isOpen id = true := by
    subst hs0
    simp only [openIfClosed, ho]
    split
    · rename_i hop
      have hop : st.isOpen id = true := hop
      refine ⟨by constructor <;> intros <;> simp [countTick, enter, upd, *], hst hop, hop⟩
    · rename_i hop
      have hop : st.isOpen id = false := by simpa [enter] using hop
      refine ⟨by constructor <;> intros <;> simp [countTick, enter, upd, *], ?_, ?_⟩
      · rw [hcl hop]; simp [countTick]
      · simp [countTick]
  obtain ⟨h0a, h0b, h0c⟩ := h0
  split at h
  · cases h
  · rename_i s1 st1 hr
    split at h
    · cases h
    · rename_i st2 hc
      cases h
      simp only [memBody, h0b, Int.toNat_natCast, execsX_drop] at hr
      have hi' : id ∉ idsList (cs.drop i) := by
        have : ∀ (cs : List (Tree L)) (i : Nat), id ∉ idsList cs → id ∉ idsList (cs.drop i) := by
          intro cs
          induction cs with
          | nil => intro i h; simpa using h
          | cons c cs ih =>
            intro i h
            cases i with
            | zero => exact h
            | succ i =>
              simp only [idsList, List.mem_append, not_or] at h
              exact ih i h.2
        exact this cs i hi
      obtain ⟨n, stm, h1, h2, h3, h4⟩ := memTick_ran hgo _ _ hi' _ _ _ hr
      obtain ⟨k1, k2⟩ := close_open hc
      refine ⟨n, st0, stm, h0a, h1, h2.trans (sameOff_close hc), ?_, fun e => by rw [(k1 e).2, h4 e]⟩
      by_cases e : s = .running
      · simp [e, (k1 e).1, h3, h0c]
      · simp [e, k2 e]

theorem mem_ticks {k : CKind} {go : Status} (hk : Mem k go) {id : Id} {cs : List (Tree L)} (hi : id ∉ idsList cs) :
    ∀ (ws : List (σ → σ)) (st : St σ) (i : Nat) (ss : List Status) (st' : St σ), (st.isOpen id = true → st.cnt id = some (i : Int)) →
      (st.isOpen id = false → i = 0) → ticksX E fuel (.comp k id cs) ws st = .ok (ss, st') → Resumes E fuel id go cs i ws st ss st'
  | [], st, i, ss, st', _, _, h => by cases h; exact .nil
  | w :: ws, st, i, ss, st', h1, h2, h => by
    simp only [ticksX] at h
    generalize hx : ({ st with user := w st.user, stack := [], count := 0 } : St σ) = stx at h
    split at h
    · cases h
    · rename_i s sta he
      split at h
      · cases h
      · rename_i ss' stb hr
        cases h
        obtain ⟨n, st0, stm, a, b, c, d, e⟩ := mem_exec (st := stx) hk hi (i := i) (by rw [← hx]; exact h1) (by rw [← hx]; exact h2) he
        subst hx
        refine .tick (st0 := st0) ?_ b c (mem_ticks hk hi ws sta _ ss' _ (fun ho => ?_) (fun ho => ?_) hr)
        · exact ⟨a.user, a.isOpen, a.cnt, a.start, a.cost, a.ticksAll, a.nSuccess⟩
        · have := d.1 ho
          rw [if_pos this]; exact e this
        · have : s ≠ .running := fun hs => by rw [d.2 hs] at ho; cases ho
          rw [if_neg this]

/-! ## The theorems -/

/-- **C12, where `xrange` is defined**: MemSequence. For all children (composites with a memory among them), all leaves and every history of ticks of a node
that is not its own descendant: every tick runs the children from left to right as long as they succeed, starting with the child that answered RUNNING in the tick
before, or with the first if none did. -/
theorem C12_xrange_memSequence_partial {id : Id} {cs : List (Tree L)} (hi : id ∉ idsList cs) {ws : List (σ → σ)} {st : St σ} (hc : st.isOpen id = false)
    {ss : List Status} {st' : St σ} (h : ticksX E fuel (.comp .memSequence id cs) ws st = .ok (ss, st')) :
    Resumes E fuel id .success cs 0 ws st ss st' :=
  mem_ticks .sequence hi ws st 0 ss st' (fun ho => by rw [hc] at ho; cases ho) (fun _ => rfl) h

/-- **C12, where `xrange` is defined**: MemPriority, likewise as long as they fail. -/
theorem C12_xrange_memPriority_partial {id : Id} {cs : List (Tree L)} (hi : id ∉ idsList cs) {ws : List (σ → σ)} {st : St σ} (hc : st.isOpen id = false)
    {ss : List Status} {st' : St σ} (h : ticksX E fuel (.comp .memPriority id cs) ws st = .ok (ss, st')) :
    Resumes E fuel id .failure cs 0 ws st ss st' :=
  mem_ticks .priority hi ws st 0 ss st' (fun ho => by rw [hc] at ho; cases ho) (fun _ => rfl) h

/-- The same for a node anywhere in a tree, execution by execution: what it remembers between two executions is whether it is open and the number of the
child; nothing that runs outside it changes either. -/
theorem C12_xrange_memory {j : Id} {t : Tree L} (h : j ∉ t.ids) {st st' : St σ} {s : Status} (hr : execX E fuel t st = .ok (s, st')) :
    st'.isOpen j = st.isOpen j ∧ st'.cnt j = st.cnt j := keeps_execX t h _ _ _ hr

/-- One execution of such a node in any state: `i` is the child that it remembers if it is open, otherwise 0. -/
theorem C12_xrange_resumes {k : CKind} {go : Status} (hk : k = .memSequence ∧ go = .success ∨ k = .memPriority ∧ go = .failure) {id : Id} {cs : List (Tree L)}
    (hi : id ∉ idsList cs) {st : St σ} {i : Nat} (hst : st.isOpen id = true → st.cnt id = some (i : Int)) (hcl : st.isOpen id = false → i = 0) {s : Status} {st' : St σ}
    (h : execX E fuel (.comp k id cs) st = .ok (s, st')) :
    ∃ n st0 st1, SameOff id st st0 ∧ Ran E fuel id go (cs.drop i) st0 s n st1 ∧ SameOff id st1 st' ∧
      (st'.isOpen id = true ↔ s = .running) ∧ (s = .running → st'.cnt id = some ((i + n : Nat) : Int)) := by
  rcases hk with ⟨rfl, rfl⟩ | ⟨rfl, rfl⟩
  · exact mem_exec .sequence hi hst hcl h
  · exact mem_exec .priority hi hst hcl h

theorem seqTick_ran {id : Id} : ∀ (cs : List (Tree L)) (tmp : Int) (st : St σ) (s : Status) (st' : St σ), seqTick id (execsX E fuel cs) tmp st = .ok (s, st') →
    ∃ n st1, Ran E fuel id .success cs st s n st1 ∧ SameOff id st1 st'
  | [], tmp, st, s, st', h => by cases h; exact ⟨0, st, .all, sameOff_cost _ _ _⟩
  | c :: cs, tmp, st, s, st', h => by
    simp only [execsX, seqTick] at h
    split at h
    · cases h
    · rename_i s1 st1 hr
      have e : { st1 with cost := upd st1.cost id (st1.cost id) } = st1 := by rw [upd_self]
      split at h
      · rename_i hs
        subst hs
        obtain ⟨n, st2, h1, h2⟩ := seqTick_ran cs _ _ _ _ h
        exact ⟨n + 1, st2, .next (v := st1.cost id) hr (by rw [e]; exact h1), h2⟩
      · rename_i hs
        cases h
        exact ⟨0, _, .stop hr hs, SameOff.refl _ _⟩

theorem priTick_ran {id : Id} : ∀ (cs : List (Tree L)) (st : St σ) (s : Status) (st' : St σ), priTick id (execsX E fuel cs) st = .ok (s, st') →
    ∃ n st1, Ran E fuel id .failure cs st s n st1 ∧ SameOff id st1 st'
  | [], st, s, st', h => by cases h; exact ⟨0, st, .all, SameOff.refl _ _⟩
  | c :: cs, st, s, st', h => by
    simp only [execsX, priTick] at h
    split at h
    · cases h
    · rename_i s1 st1 hr
      split at h
      · rename_i hs
        subst hs
        obtain ⟨n, st2, h1, h2⟩ := priTick_ran cs _ _ _ h
        exact ⟨n + 1, st2, .next hr h1, h2⟩
      · rename_i hs
        cases h
        exact ⟨0, _, .stop hr hs, SameOff.refl _ _⟩

/-- For comparison: Sequence and Priority do the same, but always from the first child. -/
theorem C12_xrange_plain {k : CKind} {go : Status} (hk : k = .sequence ∧ go = .success ∨ k = .priority ∧ go = .failure) {id : Id} {cs : List (Tree L)}
    {st : St σ} {s : Status} {st' : St σ} (h : execX E fuel (.comp k id cs) st = .ok (s, st')) :
    ∃ n st0 st1, SameOff id st st0 ∧ Ran E fuel id go cs st0 s n st1 ∧ SameOff id st1 st' := by
  simp only [execX] at h
  obtain ⟨st1, h1, h2⟩ := execute_ok_inv h
  rcases hk with ⟨rfl, rfl⟩ | ⟨rfl, rfl⟩
  · have h0 : SameOff id st (bodyStart id (fun x => x) st) := sameOff_bodyStart (E := E) Hook.none st (by simp only [bodyStart, openIfClosed]; split <;> rfl)
    obtain ⟨n, stm, a, b⟩ := seqTick_ran cs _ _ _ _ h1
    exact ⟨n, _, stm, h0, a, b.trans h2⟩
  · have h0 : SameOff id st (bodyStart id (fun x => x) st) := sameOff_bodyStart (E := E) Hook.none st (by simp only [bodyStart, openIfClosed]; split <;> rfl)
    obtain ⟨n, stm, a, b⟩ := priTick_ran cs _ _ _ h1
    exact ⟨n, _, stm, h0.trans (sameOff_cost _ _ _), a, b.trans h2⟩

mutual
theorem execX_noMem : ∀ t : Tree L, t.NoMem → execX E fuel t = exec E fuel t
  | .leaf i a, _ => by rw [execX, exec]; rfl
  | .comp k i cs, h => by
    simp only [Tree.NoMem] at h
    rw [execX, exec, execsX_noMem cs h.2.2]
    cases k
    case memSequence => exact absurd rfl h.1
    case memPriority => exact absurd rfl h.2.1
    all_goals rfl
  | .deco k i c, h => by
    simp only [Tree.NoMem] at h
    rw [execX, exec, execX_noMem c h]
  | .emptyDeco k i, _ => by rw [execX, exec]
theorem execsX_noMem : ∀ cs : List (Tree L), NoMemList cs → execsX E fuel cs = execs E fuel cs
  | [], _ => by rw [execsX, execs]
  | c :: cs, h => by
    simp only [NoMemList] at h
    rw [execsX, execs, execX_noMem c h.1, execsX_noMem cs h.2]
end

/-- Whether `xrange` is defined makes no difference to trees without these two classes. -/
theorem C12_xrange_otherwise (t : Tree L) (h : t.NoMem) : execX E fuel t = exec E fuel t := execX_noMem t h

/-- the second leaf answers RUNNING while the world is 1 -/
def memEnv : Env Nat Nat := ⟨fun a u => .ok (if a = 2 ∧ u = 1 then .running else .success, u), fun u => (0, u)⟩

/-- A MemSequence of three leaves, of which the second answers RUNNING in the first of three ticks: the first leaf runs in the first and in the third tick,
not in the second. -/
example : (ticksX memEnv 0 (.comp .memSequence 0 [.leaf 1 1, .leaf 2 2, .leaf 3 3]) [fun _ => 1, fun _ => 2, fun _ => 3] { user := 0 }).toOption.map
      (fun p => (p.1, p.2.ticksAll 1, p.2.ticksAll 2, p.2.ticksAll 3)) = some ([.running, .success, .success], 2, 3, 2) ∧
    (0 : Id) ∉ idsList [Tree.leaf 1 1, .leaf 2 2, .leaf 3 3] := by decide +kernel

end Verif.BT
