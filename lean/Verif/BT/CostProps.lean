import Verif.BT.Props
/-!
# C09: what `TotalCost` really counts, for every tree

The engine adds `node.Cost` to `TotalCost` after each node execution, and a composite sets its own `Cost` to the
sum of the Costs of the children it executed. So the Cost of a leaf (or decorator) is charged once for the node
itself and once more for every composite above it, up to the nearest decorator: a decorator does not pass its
child's Cost on.
-/
namespace Verif.BT
variable {σ L : Type} {E : Env σ L} {fuel : Nat}

/-! ### Specification -/

mutual
/-- The nodes with a Cost of their own (leaves and decorators), each with the number of times one execution is
charged: `d` for the root; one more per composite above it; 1 directly below a decorator. -/
def Tree.charges : Tree L → Int → List (Id × Int)
  | .leaf i _, d => [(i, d)]
  | .comp _ _ cs, d => chargesList cs (d + 1)
  | .deco _ i c, d => (i, d) :: c.charges 1
  | .emptyDeco _ i, d => [(i, d)]
def chargesList : List (Tree L) → Int → List (Id × Int)
  | [], _ => []
  | c :: cs, d => c.charges d ++ chargesList cs d
end

mutual
/-- The nodes with a Cost of their own that have no decorator above them, each with weight 1. -/
def Tree.tops : Tree L → List (Id × Int)
  | .leaf i _ => [(i, 1)]
  | .comp _ _ cs => topsList cs
  | .deco _ i _ => [(i, 1)]
  | .emptyDeco _ i => [(i, 1)]
def topsList : List (Tree L) → List (Id × Int)
  | [] => []
  | c :: cs => c.tops ++ topsList cs
end

mutual
/-- The leaves of a tree. -/
def Tree.leaves : Tree L → List Id
  | .leaf i _ => [i]
  | .comp _ _ cs => leavesList cs
  | .deco _ _ c => c.leaves
  | .emptyDeco _ _ => []
def leavesList : List (Tree L) → List Id
  | [] => []
  | c :: cs => c.leaves ++ leavesList cs
end

mutual
/-- The decorators of a tree. -/
def Tree.decos : Tree L → List Id
  | .leaf _ _ => []
  | .comp _ _ cs => decosList cs
  | .deco _ i c => i :: c.decos
  | .emptyDeco _ i => [i]
def decosList : List (Tree L) → List Id
  | [] => []
  | c :: cs => c.decos ++ decosList cs
end

/-- How often node `j` was executed between two states, by its counter `N_ticks_all`. -/
def ran? (st st' : St σ) (j : Id) : Int := (st'.ticksAll j : Int) - st.ticksAll j

/-- Weighted sum of (initial) Costs over the executions that happened. -/
def charge (st st' : St σ) (l : List (Id × Int)) : Int :=
  (l.map fun p => p.2 * (st.cost p.1 * ran? st st' p.1)).sum

/-! ### Proof -/

theorem charge_nil (st st' : St σ) : charge st st' [] = 0 := rfl
theorem charge_cons (st st' : St σ) (p) (l) :
    charge st st' (p :: l) = p.2 * (st.cost p.1 * ran? st st' p.1) + charge st st' l := by simp [charge]
theorem charge_append (st st' : St σ) (l l') : charge st st' (l ++ l') = charge st st' l + charge st st' l' := by
  simp [charge]

theorem charge_congr {a a' b b' : St σ} {l : List (Id × Int)}
    (h : ∀ p ∈ l, a.cost p.1 = b.cost p.1 ∧ ran? a a' p.1 = ran? b b' p.1) : charge a a' l = charge b b' l := by
  induction l with
  | nil => rfl
  | cons p l ih =>
    rw [charge_cons, charge_cons, ih (fun q hq => h q (by simp [hq])), (h p (by simp)).1, (h p (by simp)).2]

theorem charge_add {a b c : St σ} {l : List (Id × Int)} (h : ∀ p ∈ l, b.cost p.1 = a.cost p.1) :
    charge a c l = charge a b l + charge b c l := by
  induction l with
  | nil => rfl
  | cons p l ih =>
    rw [charge_cons, charge_cons, charge_cons, ih (fun q hq => h q (by simp [hq])), h p (by simp)]
    simp only [ran?, Int.mul_sub]; omega

theorem charge_zero {a b : St σ} {l : List (Id × Int)} (h : ∀ p ∈ l, b.ticksAll p.1 = a.ticksAll p.1) :
    charge a b l = 0 := by
  induction l with
  | nil => rfl
  | cons p l ih =>
    rw [charge_cons, ih (fun q hq => h q (by simp [hq])), ran?, h p (by simp)]; simp

/-- What an execution (or several) of nodes with ids `S` and priced nodes `ch` does to Costs and counters;
`T`: nodes whose `Cost` may change. -/
structure Bill (S T : List Id) (ch : List (Id × Int)) (st st' : St σ) : Prop where
  ticks : ∀ j, j ∉ S → st'.ticksAll j = st.ticksAll j
  cost : ∀ j, j ∉ T → st'.cost j = st.cost j
  fixed : ∀ p ∈ ch, st'.cost p.1 = st.cost p.1
  total : st'.totalCost = st.totalCost + charge st st' ch

theorem Bill.refl (S T ch) (st : St σ) : Bill S T ch st st :=
  ⟨fun _ _ => rfl, fun _ _ => rfl, fun _ _ => rfl, by rw [charge_zero (fun _ _ => rfl)]; simp⟩

theorem Bill.trans {S T ch} {a b c : St σ} (h : Bill S T ch a b) (h' : Bill S T ch b c) : Bill S T ch a c :=
  ⟨fun j hj => (h'.ticks j hj).trans (h.ticks j hj), fun j hj => (h'.cost j hj).trans (h.cost j hj),
   fun p hp => (h'.fixed p hp).trans (h.fixed p hp), by
    rw [h'.total, h.total, charge_add (a := a) (b := b) (c := c) h.fixed]; omega⟩

theorem Bill.append {S T ch S' T' ch'} {a b c : St σ} (h : Bill S T ch a b) (h' : Bill S' T' ch' b c)
    (h1 : ∀ p ∈ ch, p.1 ∉ S' ∧ p.1 ∉ T') (h2 : ∀ p ∈ ch', p.1 ∉ S ∧ p.1 ∉ T) :
    Bill (S ++ S') (T ++ T') (ch ++ ch') a c where
  ticks j hj := by
    simp only [List.mem_append, not_or] at hj
    rw [h'.ticks j hj.2, h.ticks j hj.1]
  cost j hj := by
    simp only [List.mem_append, not_or] at hj
    rw [h'.cost j hj.2, h.cost j hj.1]
  fixed p hp := by
    rcases List.mem_append.1 hp with hp | hp
    · rw [h'.cost _ (h1 p hp).2, h.fixed p hp]
    · rw [h'.fixed p hp, h.cost _ (h2 p hp).2]
  total := by
    rw [h'.total, h.total, charge_append]
    rw [charge_congr (a := a) (a' := c) (b := a) (b' := b) (l := ch)
      (fun p hp => ⟨rfl, by simp only [ran?, h'.ticks _ (h1 p hp).1]⟩)]
    rw [charge_congr (a := a) (a' := c) (b := b) (b' := c) (l := ch')
      (fun p hp => ⟨(h.cost _ (h2 p hp).2).symm, by simp only [ran?, h.ticks _ (h2 p hp).1]⟩)]
    omega

theorem Bill.mono {S T S' T' ch} {a b : St σ} (h : Bill S T ch a b) (hS : ∀ j ∈ S, j ∈ S') (hT : ∀ j ∈ T, j ∈ T') :
    Bill S' T' ch a b :=
  ⟨fun j hj => h.ticks j (fun h => hj (hS j h)), fun j hj => h.cost j (fun h => hj (hT j h)), h.fixed, h.total⟩

/-- Only the fields read by `Bill` matter. -/
theorem Bill.congr {S T ch} {a b a' b' : St σ} (h : Bill S T ch a b)
    (h1 : a'.ticksAll = a.ticksAll) (h2 : a'.cost = a.cost) (h3 : a'.totalCost = a.totalCost)
    (h4 : b'.ticksAll = b.ticksAll) (h5 : b'.cost = b.cost) (h6 : b'.totalCost = b.totalCost) : Bill S T ch a' b' :=
  ⟨fun j hj => by rw [h4, h1]; exact h.ticks j hj, fun j hj => by rw [h5, h2]; exact h.cost j hj,
   fun p hp => by rw [h5, h2]; exact h.fixed p hp, by
    rw [h6, h3, h.total]; congr 1; apply charge_congr; intro p _; simp only [ran?, h1, h2, h4, and_self]⟩

theorem Bill.setCost {S T ch} {a b : St σ} (h : Bill S T ch a b) {i : Id} (hi : i ∈ T) (hc : ∀ p ∈ ch, p.1 ≠ i)
    (v : Int) : Bill S T ch a { b with cost := upd b.cost i v } :=
  ⟨h.ticks, fun j hj => (upd_other _ _ (fun e : j = i => hj (e ▸ hi))).trans (h.cost j hj),
   fun p hp => (upd_other _ _ (hc p hp)).trans (h.fixed p hp), h.total⟩

theorem Bill.preCost {S T ch} {a b : St σ} {i : Id} {v : Int} (h : Bill S T ch { a with cost := upd a.cost i v } b)
    (hi : i ∈ T) (hc : ∀ p ∈ ch, p.1 ≠ i) : Bill S T ch a b :=
  ⟨h.ticks, fun j hj => by rw [h.cost j hj]; exact upd_other _ _ (fun e => hj (e ▸ hi)),
   fun p hp => by rw [h.fixed p hp]; exact upd_other _ _ (hc p hp), by
    rw [h.total]; congr 1; apply charge_congr; intro p hp; exact ⟨upd_other _ _ (hc p hp), rfl⟩⟩

/-! ids of the priced nodes -/

mutual
theorem charges_ids : ∀ (t : Tree L) (d : Int), ∀ p ∈ t.charges d, p.1 ∈ t.ids
  | .leaf i a, d, p, hp => by simp [Tree.charges] at hp; simp [Tree.ids, hp]
  | .comp k i cs, d, p, hp => by
    simp only [Tree.charges] at hp; simp only [Tree.ids, List.mem_cons]; exact .inr (chargesList_ids cs _ p hp)
  | .deco k i c, d, p, hp => by
    simp only [Tree.charges, List.mem_cons] at hp; simp only [Tree.ids, List.mem_cons]
    rcases hp with rfl | hp
    · exact .inl rfl
    · exact .inr (charges_ids c _ p hp)
  | .emptyDeco k i, d, p, hp => by simp [Tree.charges] at hp; simp [Tree.ids, hp]
theorem chargesList_ids : ∀ (cs : List (Tree L)) (d : Int), ∀ p ∈ chargesList cs d, p.1 ∈ idsList cs
  | [], d, p, hp => by simp [chargesList] at hp
  | c :: cs, d, p, hp => by
    simp only [chargesList, List.mem_append] at hp; simp only [idsList, List.mem_append]
    rcases hp with hp | hp
    · exact .inl (charges_ids c _ p hp)
    · exact .inr (chargesList_ids cs _ p hp)
end

mutual
theorem tops_ids : ∀ (t : Tree L), ∀ p ∈ t.tops, p.1 ∈ t.ids
  | .leaf i a, p, hp => by simp [Tree.tops] at hp; simp [Tree.ids, hp]
  | .comp k i cs, p, hp => by
    simp only [Tree.tops] at hp; simp only [Tree.ids, List.mem_cons]; exact .inr (topsList_ids cs p hp)
  | .deco k i c, p, hp => by simp [Tree.tops] at hp; simp [Tree.ids, hp]
  | .emptyDeco k i, p, hp => by simp [Tree.tops] at hp; simp [Tree.ids, hp]
theorem topsList_ids : ∀ (cs : List (Tree L)), ∀ p ∈ topsList cs, p.1 ∈ idsList cs
  | [], p, hp => by simp [topsList] at hp
  | c :: cs, p, hp => by
    simp only [topsList, List.mem_append] at hp; simp only [idsList, List.mem_append]
    rcases hp with hp | hp
    · exact .inl (tops_ids c p hp)
    · exact .inr (topsList_ids cs p hp)
end

mutual
theorem charges_succ (st st' : St σ) : ∀ (t : Tree L) (d : Int),
    charge st st' (t.charges (d + 1)) = charge st st' (t.charges d) + charge st st' t.tops
  | .leaf i a, d => by
    simp only [Tree.charges, Tree.tops, charge_cons, charge_nil, Int.add_mul]; omega
  | .comp k i cs, d => by simp only [Tree.charges, Tree.tops]; exact chargesList_succ st st' cs _
  | .deco k i c, d => by
    simp only [Tree.charges, Tree.tops, charge_cons, charge_nil, Int.add_mul]; omega
  | .emptyDeco k i, d => by
    simp only [Tree.charges, Tree.tops, charge_cons, charge_nil, Int.add_mul]; omega
theorem chargesList_succ (st st' : St σ) : ∀ (cs : List (Tree L)) (d : Int),
    charge st st' (chargesList cs (d + 1)) = charge st st' (chargesList cs d) + charge st st' (topsList cs)
  | [], d => by simp [chargesList, topsList, charge_nil]
  | c :: cs, d => by
    simp only [chargesList, topsList, charge_append]
    rw [charges_succ st st' c d, chargesList_succ st st' cs d]; omega
end

/-- What is shown of one tree. -/
def Billed (E : Env σ L) (fuel : Nat) (t : Tree L) : Prop :=
  ∀ st s st', exec E fuel t st = .ok (s, st') →
    Bill t.ids t.ids (t.charges 1) st st' ∧ st'.cost t.id = charge st st' t.tops

theorem bodyStart_cost {id : Id} {hook : St σ → St σ} (hh : Hook E id hook) (st : St σ) :
    (bodyStart id hook st).cost = st.cost ∧ (bodyStart id hook st).totalCost = st.totalCost := by
  simp only [bodyStart, openIfClosed]
  split
  · exact ⟨rfl, rfl⟩
  · obtain ⟨u, c, s, h, _⟩ := hh.spec { (enter id st) with isOpen := upd (enter id st).isOpen id true }
    rw [h]; exact ⟨rfl, rfl⟩

/-- `_execute` around the body: one more tick of the node, and its final Cost added. -/
theorem execute_cost {id : Id} {hook : St σ → St σ} {body : St σ → Res σ} {st : St σ} {s st'}
    (h : execute id hook body st = .ok (s, st')) :
    ∃ st1, body (bodyStart id hook st) = .ok (s, st1) ∧ st'.cost = st1.cost ∧ st'.ticksAll = st1.ticksAll ∧
      st'.totalCost = st1.totalCost + st1.cost id := by
  simp only [execute] at h
  cases hb : body (countTick id (openIfClosed id hook (enter id st))) with
  | error e => rw [hb] at h; cases h
  | ok p =>
    obtain ⟨s', st1⟩ := p
    rw [hb] at h
    simp only at h
    cases hc : closeIfDone id s' (afterTick id s' st1) with
    | error e => rw [hc] at h; cases h
    | ok st3 =>
      rw [hc] at h; simp only [Except.ok.injEq, Prod.mk.injEq] at h
      obtain ⟨rfl, rfl⟩ := h
      refine ⟨st1, hb, ?_⟩
      cases s'
      case running => simp [closeIfDone, afterTick] at hc; rw [← hc]; exact ⟨rfl, rfl, rfl⟩
      all_goals
        simp only [closeIfDone, afterTick] at hc
        rw [if_neg (by simp)] at hc
        split at hc
        · cases hc
        · simp only [Except.ok.injEq] at hc; rw [← hc]; exact ⟨rfl, rfl, rfl⟩

/-- What is shown of a list of children run by a composite `self`. -/
def ListBill (self : Id) (cs : List (Tree L)) (st st' : St σ) : Prop :=
  Bill (idsList cs) (self :: idsList cs) (chargesList cs 1) st st'

theorem listBill_cons {self : Id} {c : Tree L} {cs : List (Tree L)} {a b d : St σ}
    (hself : self ∉ c.ids ++ idsList cs) (hn : (c.ids ++ idsList cs).Nodup)
    (h1 : Bill c.ids c.ids (c.charges 1) a b) (h2 : ListBill self cs b d) : ListBill self (c :: cs) a d := by
  have hd := (List.nodup_append.1 hn).2.2
  simp only [List.mem_append, not_or] at hself
  refine (Bill.append h1 h2 ?_ ?_).mono (by simp [idsList]) ?_
  · intro p hp
    have := charges_ids c _ p hp
    refine ⟨fun h => hd _ this _ h rfl, fun h => ?_⟩
    rcases List.mem_cons.1 h with h | h
    · exact hself.1 (h ▸ this)
    · exact hd _ this _ h rfl
  · intro p hp
    have := chargesList_ids cs _ p hp
    exact ⟨fun h => hd _ h _ this rfl, fun h => hd _ h _ this rfl⟩
  · intro j hj
    simp only [idsList, List.mem_append, List.mem_cons] at hj ⊢
    rcases hj with h | h | h
    · exact .inr (.inl h)
    · exact .inl h
    · exact .inr (.inr h)

theorem tops_split {c : Tree L} {cs : List (Tree L)} {self : Id} {a b d : St σ}
    (hself : self ∉ c.ids ++ idsList cs) (hn : (c.ids ++ idsList cs).Nodup)
    (h1 : Bill c.ids c.ids (c.charges 1) a b) (h2 : ListBill self cs b d) :
    charge a d (topsList (c :: cs)) = charge a b c.tops + charge b d (topsList cs) := by
  have hd := (List.nodup_append.1 hn).2.2
  simp only [topsList, charge_append]
  congr 1
  · exact charge_congr fun p hp => ⟨rfl, by
      simp only [ran?]; rw [h2.ticks _ (fun h => hd _ (tops_ids c p hp) _ h rfl)]⟩
  · exact charge_congr fun p hp => by
      have := topsList_ids cs p hp
      refine ⟨(h1.cost _ (fun h => hd _ h _ this rfl)).symm, ?_⟩
      simp only [ran?]; rw [h1.ticks _ (fun h => hd _ h _ this rfl)]

/-- The rest of the children is not executed. -/
theorem listBill_stop {self : Id} {cs : List (Tree L)} (st : St σ) (hself : self ∉ idsList cs) (v : Int) :
    ListBill self cs st { st with cost := upd st.cost self v } :=
  (Bill.refl _ _ _ st).setCost (by simp) (fun p hp (e : p.1 = self) => hself (e ▸ chargesList_ids cs _ p hp)) v

theorem topsList_stop {cs : List (Tree L)} (a b : St σ) (h : b.ticksAll = a.ticksAll) :
    charge a b (topsList cs) = 0 := charge_zero fun p _ => by rw [h]

theorem seq_bill {self : Id} : ∀ (cs : List (Tree L)), self ∉ idsList cs → (idsList cs).Nodup →
    (∀ c ∈ cs, Billed E fuel c) → ∀ tmp st s st', seqTick self (execs E fuel cs) tmp st = .ok (s, st') →
    ListBill self cs st st' ∧ st'.cost self = tmp + charge st st' (topsList cs)
  | [], _, _, _, tmp, st, s, st', h => by
    simp only [execs, seqTick, Except.ok.injEq, Prod.mk.injEq] at h
    rw [← h.2]
    exact ⟨listBill_stop st (by simp [idsList]) tmp, by simp [topsList, charge_nil]⟩
  | c :: cs, hself, hn, hb, tmp, st, s, st', h => by
    simp only [idsList] at hself hn
    simp only [execs, seqTick] at h
    cases hx : exec E fuel c st with
    | error e => rw [hx] at h; cases h
    | ok p =>
      obtain ⟨s1, st1⟩ := p
      rw [hx] at h; simp only at h
      obtain ⟨b1, b2⟩ := hb c (by simp) _ _ _ hx
      have hs2 : self ∉ idsList cs := fun h => hself (by simp [h])
      split at h
      · obtain ⟨i1, i2⟩ := seq_bill cs hs2 (List.nodup_append.1 hn).2.1 (fun c hc => hb c (by simp [hc])) _ _ _ _ h
        exact ⟨listBill_cons hself hn b1 i1, by rw [i2, b2, tops_split hself hn b1 i1]; omega⟩
      · simp only [Except.ok.injEq, Prod.mk.injEq] at h
        rw [← h.2]
        have i1 := listBill_stop st1 hs2 (tmp + st1.cost c.id)
        refine ⟨listBill_cons hself hn b1 i1, ?_⟩
        rw [tops_split hself hn b1 i1, topsList_stop _ _ (by rfl), ← b2]; simp

theorem listBill_set {self : Id} {c : Tree L} {cs : List (Tree L)} {b d : St σ} {v : Int}
    (hself : self ∉ c.ids ++ idsList cs)
    (h2 : ListBill self cs { b with cost := upd b.cost self v } d) : ListBill self cs b d :=
  Bill.preCost h2 (by simp) fun p hp e => hself (by rw [← e]; simp [chargesList_ids cs _ p hp])

theorem charge_pre {self : Id} {cs : List (Tree L)} {b d : St σ} {v : Int} (hself : self ∉ idsList cs) :
    charge { b with cost := upd b.cost self v } d (topsList cs) = charge b d (topsList cs) :=
  charge_congr fun p hp => ⟨upd_other _ _ (fun e => hself (e ▸ topsList_ids cs p hp)), rfl⟩

theorem pri_bill {self : Id} : ∀ (cs : List (Tree L)), self ∉ idsList cs → (idsList cs).Nodup →
    (∀ c ∈ cs, Billed E fuel c) → ∀ st s st', priTick self (execs E fuel cs) st = .ok (s, st') →
    ListBill self cs st st' ∧ st'.cost self = st.cost self + charge st st' (topsList cs)
  | [], _, _, _, st, s, st', h => by
    simp only [execs, priTick, Except.ok.injEq, Prod.mk.injEq] at h
    rw [← h.2]
    exact ⟨Bill.refl _ _ _ _, by simp [topsList, charge_nil]⟩
  | c :: cs, hself, hn, hb, st, s, st', h => by
    simp only [idsList] at hself hn
    simp only [execs, priTick] at h
    cases hx : exec E fuel c st with
    | error e => rw [hx] at h; cases h
    | ok p =>
      obtain ⟨s1, st1⟩ := p
      rw [hx] at h; simp only at h
      obtain ⟨b1, b2⟩ := hb c (by simp) _ _ _ hx
      have hs1 : self ∉ c.ids := fun h => hself (by simp [h])
      have hs2 : self ∉ idsList cs := fun h => hself (by simp [h])
      have hc := b1.cost self hs1
      split at h
      · obtain ⟨i1, i2⟩ := pri_bill cs hs2 (List.nodup_append.1 hn).2.1 (fun c hc => hb c (by simp [hc])) _ _ _ h
        have i1' := listBill_set hself i1
        refine ⟨listBill_cons hself hn b1 i1', ?_⟩
        rw [i2, charge_pre hs2, tops_split hself hn b1 i1', ← b2]
        simp only [upd_same]; omega
      · simp only [Except.ok.injEq, Prod.mk.injEq] at h
        rw [← h.2]
        have i1 := listBill_stop st1 hs2 (st1.cost self + st1.cost c.id)
        refine ⟨listBill_cons hself hn b1 i1, ?_⟩
        rw [tops_split hself hn b1 i1, topsList_stop _ _ (by rfl), ← b2]; simp; omega

theorem or_bill {self : Id} : ∀ (cs : List (Tree L)), self ∉ idsList cs → (idsList cs).Nodup →
    (∀ c ∈ cs, Billed E fuel c) → ∀ acc st s st', orTick self (execs E fuel cs) acc st = .ok (s, st') →
    ListBill self cs st st' ∧ st'.cost self = st.cost self + charge st st' (topsList cs)
  | [], _, _, _, acc, st, s, st', h => by
    simp only [execs, orTick, Except.ok.injEq, Prod.mk.injEq] at h
    rw [← h.2]
    exact ⟨Bill.refl _ _ _ _, by simp [topsList, charge_nil]⟩
  | c :: cs, hself, hn, hb, acc, st, s, st', h => by
    simp only [idsList] at hself hn
    simp only [execs, orTick] at h
    cases hx : exec E fuel c st with
    | error e => rw [hx] at h; cases h
    | ok p =>
      obtain ⟨s1, st1⟩ := p
      rw [hx] at h; simp only at h
      obtain ⟨b1, b2⟩ := hb c (by simp) _ _ _ hx
      have hs1 : self ∉ c.ids := fun h => hself (by simp [h])
      have hs2 : self ∉ idsList cs := fun h => hself (by simp [h])
      have hc := b1.cost self hs1
      obtain ⟨i1, i2⟩ := or_bill cs hs2 (List.nodup_append.1 hn).2.1 (fun c hc => hb c (by simp [hc])) _ _ _ _ h
      have i1' := listBill_set hself i1
      refine ⟨listBill_cons hself hn b1 i1', ?_⟩
      rw [i2, charge_pre hs2, tops_split hself hn b1 i1', ← b2]
      simp only [upd_same]; omega

/-- A composite: from its children's bill to its own. -/
theorem comp_close {k : CKind} {id : Id} {cs : List (Tree L)} {hook : St σ → St σ} (hh : Hook E id hook)
    {st st1 st' : St σ} (hid : id ∉ idsList cs) (hb : ListBill id cs (bodyStart id hook st) st1)
    (hc : st1.cost id = charge (bodyStart id hook st) st1 (topsList cs))
    (e1 : st'.cost = st1.cost) (e2 : st'.ticksAll = st1.ticksAll)
    (e3 : st'.totalCost = st1.totalCost + st1.cost id) :
    Bill (Tree.comp k id cs).ids (Tree.comp k id cs).ids ((Tree.comp k id cs).charges 1) st st' ∧
    st'.cost id = charge st st' (Tree.comp k id cs).tops := by
  obtain ⟨c1, c2⟩ := bodyStart_cost hh st
  have c3 := (around hh st).2.2.1
  have ne : ∀ j, j ∈ idsList cs → j ≠ id := fun j h e => hid (e ▸ h)
  have cg : ∀ l : List (Id × Int), (∀ p ∈ l, p.1 ∈ idsList cs) →
      charge (bodyStart id hook st) st1 l = charge st st' l := fun l hl => by
    refine charge_congr fun p hp => ⟨by rw [c1], ?_⟩
    simp only [ran?, e2, c3, upd_other _ _ (ne _ (hl p hp))]
  refine ⟨⟨?_, ?_, ?_, ?_⟩, ?_⟩
  · intro j hj
    simp only [Tree.ids, List.mem_cons, not_or] at hj
    rw [e2, hb.ticks j hj.2, c3, upd_other _ _ hj.1]
  · intro j hj
    simp only [Tree.ids] at hj
    rw [e1, hb.cost j hj, c1]
  · intro p hp
    simp only [Tree.charges] at hp
    have hp' := chargesList_ids cs _ p hp
    rw [e1]
    -- the priced nodes do not depend on the weight
    have key : ∀ q ∈ chargesList cs 1, st1.cost q.1 = st.cost q.1 := fun q hq => by rw [hb.fixed q hq, c1]
    obtain ⟨q, hq, hqp⟩ : ∃ q ∈ chargesList cs 1, q.1 = p.1 := weights cs 1 (1 + 1) p hp
    rw [← hqp]; exact key q hq
  · rw [e3, hb.total, hc, c2, cg _ (chargesList_ids cs 1), cg _ (topsList_ids cs)]
    simp only [Tree.charges]
    rw [chargesList_succ]; omega
  · rw [e1, hc, cg _ (topsList_ids cs)]; rfl
where
  weight : ∀ (t : Tree L) (d d' : Int), ∀ p ∈ t.charges d', ∃ q ∈ t.charges d, q.1 = p.1
    | .leaf i a, d, d', p, hp => by simp [Tree.charges] at hp ⊢; simp [hp]
    | .comp k i cs, d, d', p, hp => by simp only [Tree.charges] at hp ⊢; exact weights cs _ _ p hp
    | .deco k i c, d, d', p, hp => by
      simp only [Tree.charges, List.mem_cons] at hp
      rcases hp with rfl | hp
      · exact ⟨(i, d), by simp [Tree.charges], rfl⟩
      · exact ⟨p, by simp [Tree.charges, hp], rfl⟩
    | .emptyDeco k i, d, d', p, hp => by simp [Tree.charges] at hp ⊢; simp [hp]
  weights : ∀ (cs : List (Tree L)) (d d' : Int), ∀ p ∈ chargesList cs d', ∃ q ∈ chargesList cs d, q.1 = p.1
    | [], d, d', p, hp => by simp [chargesList] at hp
    | c :: cs, d, d', p, hp => by
      simp only [chargesList, List.mem_append] at hp
      rcases hp with hp | hp
      · obtain ⟨q, hq, e⟩ := weight c d d' p hp
        exact ⟨q, by simp [chargesList, hq], e⟩
      · obtain ⟨q, hq, e⟩ := weights cs d d' p hp
        exact ⟨q, by simp [chargesList, hq], e⟩

/-- The loop of the repeat decorators. -/
theorem loop_bill {c : Tree L} (hb : Billed E fuel c) {cont m} :
    ∀ n last i st last' i' st', whileLoop cont m (exec E fuel c) n last i st = .ok (last', i', st') →
      Bill c.ids c.ids (c.charges 1) st st' := by
  intro n
  induction n with
  | zero =>
    intro last i st l i' st' h
    rw [whileLoop] at h
    split at h
    · cases h
    · simp only [Except.ok.injEq, Prod.mk.injEq] at h; rw [← h.2.2]; exact Bill.refl _ _ _ _
  | succ n ih =>
    intro last i st l i' st' h
    rw [whileLoop] at h
    split at h
    · cases hx : exec E fuel c st with
      | error e => rw [hx] at h; cases h
      | ok p =>
        obtain ⟨s1, st1⟩ := p
        rw [hx] at h; simp only at h
        split at h
        · exact (hb _ _ _ hx).1.trans (ih _ _ _ _ _ _ h)
        · simp only [Except.ok.injEq, Prod.mk.injEq] at h; rw [← h.2.2]; exact (hb _ _ _ hx).1
    · simp only [Except.ok.injEq, Prod.mk.injEq] at h; rw [← h.2.2]; exact Bill.refl _ _ _ _

theorem repeat_bill {c : Tree L} (hb : Billed E fuel c) {cont init m self st s st'}
    (h : repeatTick cont init fuel m self (exec E fuel c) st = .ok (s, st')) :
    Bill c.ids c.ids (c.charges 1) st st' := by
  simp only [repeatTick] at h
  split at h
  · cases h
  · split at h
    · cases h
    · rename_i hw
      have := loop_bill hb _ _ _ _ _ _ _ hw
      split at h
      · cases h
      · simp only [Except.ok.injEq, Prod.mk.injEq] at h
        rw [← h.2]; exact this.congr rfl rfl rfl rfl rfl rfl

theorem deco_bill {c : Tree L} (hb : Billed E fuel c) {k self st s st'}
    (h : decoTick E fuel k self (exec E fuel c) st = .ok (s, st')) :
    Bill c.ids c.ids (c.charges 1) st st' := by
  cases k with
  | inverter =>
    simp only [decoTick] at h
    cases hx : exec E fuel c st with
    | error e => rw [hx] at h; cases h
    | ok p =>
      rw [hx] at h; simp only [Except.ok.injEq, Prod.mk.injEq] at h
      rw [← h.2]; exact (hb _ _ _ hx).1
  | limiter m =>
    simp only [decoTick] at h
    split at h
    · cases h
    · split at h
      · cases hx : exec E fuel c st with
        | error e => rw [hx] at h; cases h
        | ok p =>
          rw [hx] at h; simp only at h
          have := (hb _ _ _ hx).1
          split at h <;> simp only [Except.ok.injEq, Prod.mk.injEq] at h <;> rw [← h.2]
          · exact this.congr rfl rfl rfl rfl rfl rfl
          · exact this
      · simp only [Except.ok.injEq, Prod.mk.injEq] at h
        rw [← h.2]; exact Bill.refl _ _ _ _
  | repeater m => exact repeat_bill hb h
  | untilFailure m => exact repeat_bill hb h
  | untilSuccess m => exact repeat_bill hb h
  | maxTime t =>
    simp only [decoTick] at h
    split at h
    · cases h
    · cases hx : exec E fuel c { st with user := (E.now st.user).2 } with
      | error e => rw [hx] at h; cases h
      | ok p =>
        rw [hx] at h; simp only at h
        have := (hb _ _ _ hx).1
        split at h <;> simp only [Except.ok.injEq, Prod.mk.injEq] at h <;> rw [← h.2]
        · exact this.congr rfl rfl rfl rfl rfl rfl
        · exact this.congr rfl rfl rfl rfl rfl rfl

mutual
theorem billed {E : Env σ L} {fuel : Nat} : ∀ t : Tree L, t.ids.Nodup → Billed E fuel t
  | .leaf id a, _ => by
    intro st s st' h
    rw [exec] at h
    obtain ⟨st1, h1, e1, e2, e3⟩ := execute_cost h
    obtain ⟨c1, c2⟩ := bodyStart_cost (E := E) (id := id) .none st
    have c3 := (around (E := E) (id := id) .none st).2.2.1
    split at h1
    · cases h1
    · simp only [Except.ok.injEq, Prod.mk.injEq] at h1
      obtain ⟨rfl, rfl⟩ := h1
      simp only at e1 e2 e3
      have hr : ran? st st' id = 1 := by simp [ran?, e2, c3]; omega
      refine ⟨⟨?_, ?_, ?_, ?_⟩, ?_⟩
      · intro j hj; simp only [Tree.ids, List.mem_singleton] at hj
        rw [e2, c3, upd_other _ _ hj]
      · intro j _; rw [e1, c1]
      · intro p _; rw [e1, c1]
      · rw [e3, c1, c2]; simp [Tree.charges, charge_cons, charge_nil, hr]
      · rw [e1, c1]; simp [Tree.tops, charge_cons, charge_nil, hr, Tree.id]
  | .comp k id cs, hn => by
    intro st s st' h
    simp only [Tree.ids, List.nodup_cons] at hn
    have hcs := billedList (E := E) (fuel := fuel) cs hn.2
    rw [exec] at h
    obtain ⟨st1, h1, e1, e2, e3⟩ := execute_cost h
    cases k with
    | sequence =>
      obtain ⟨b1, b2⟩ := seq_bill cs hn.1 hn.2 hcs _ _ _ _ h1
      exact comp_close (E := E) .none hn.1 b1 (by rw [b2]; simp) e1 e2 e3
    | priority =>
      simp only [compTick] at h1
      obtain ⟨b1, b2⟩ := pri_bill cs hn.1 hn.2 hcs _ _ _ h1
      rw [charge_pre hn.1] at b2
      simp only [upd_same, Int.zero_add] at b2
      exact comp_close (E := E) .none hn.1
        (Bill.preCost b1 (by simp) fun p hp e => hn.1 (e ▸ chargesList_ids cs _ p hp)) b2 e1 e2 e3
    | orNode =>
      simp only [compTick] at h1
      obtain ⟨b1, b2⟩ := or_bill cs hn.1 hn.2 hcs _ _ _ _ h1
      rw [charge_pre hn.1] at b2
      simp only [upd_same, Int.zero_add] at b2
      exact comp_close (E := E) .none hn.1
        (Bill.preCost b1 (by simp) fun p hp e => hn.1 (e ▸ chargesList_ids cs _ p hp)) b2 e1 e2 e3
    | memSequence => simp [compTick] at h1
    | memPriority => simp [compTick] at h1
  | .deco k id c, hn => by
    intro st s st' h
    simp only [Tree.ids, List.nodup_cons] at hn
    have hc := billed (E := E) (fuel := fuel) c hn.2
    rw [exec] at h
    obtain ⟨st1, h1, e1, e2, e3⟩ := execute_cost h
    obtain ⟨c1, c2⟩ := bodyStart_cost (E := E) (id := id) (.deco k) st
    have c3 := (around (E := E) (id := id) (.deco k) st).2.2.1
    have b := deco_bill hc h1
    have hr : ran? st st' id = 1 := by simp [ran?, e2, b.ticks id hn.1, c3]; omega
    have hcost : st1.cost id = st.cost id := by rw [b.cost id hn.1, c1]
    have ne : ∀ j, j ∈ c.ids → j ≠ id := fun j h e => hn.1 (e ▸ h)
    refine ⟨⟨?_, ?_, ?_, ?_⟩, ?_⟩
    · intro j hj; simp only [Tree.ids, List.mem_cons, not_or] at hj
      rw [e2, b.ticks j hj.2, c3, upd_other _ _ hj.1]
    · intro j hj; simp only [Tree.ids, List.mem_cons, not_or] at hj
      rw [e1, b.cost j hj.2, c1]
    · intro p hp
      simp only [Tree.charges, List.mem_cons] at hp
      rcases hp with rfl | hp
      · rw [e1, hcost]
      · rw [e1, b.fixed p hp, c1]
    · rw [e3, b.total, c2, hcost]
      simp only [Tree.charges, charge_cons, hr]
      rw [charge_congr (a := st) (a' := st') (b := bodyStart id (openHook E k id) st) (b' := st1)
        (l := c.charges 1) (fun p hp => ⟨by rw [c1], by
          simp only [ran?, e2, c3, upd_other _ _ (ne _ (charges_ids c _ p hp))]⟩)]
      omega
    · rw [e1]; simp [Tree.tops, charge_cons, charge_nil, hr, Tree.id, hcost]
  | .emptyDeco k id, _ => by
    intro st s st' h
    rw [exec] at h
    obtain ⟨st1, h1, e1, e2, e3⟩ := execute_cost h
    obtain ⟨c1, c2⟩ := bodyStart_cost (E := E) (id := id) (.deco k) st
    have c3 := (around (E := E) (id := id) (.deco k) st).2.2.1
    simp only [Except.ok.injEq, Prod.mk.injEq] at h1
    obtain ⟨rfl, rfl⟩ := h1
    have hr : ran? st st' id = 1 := by simp [ran?, e2, c3]; omega
    refine ⟨⟨?_, ?_, ?_, ?_⟩, ?_⟩
    · intro j hj; simp only [Tree.ids, List.mem_singleton] at hj
      rw [e2, c3, upd_other _ _ hj]
    · intro j _; rw [e1, c1]
    · intro p _; rw [e1, c1]
    · rw [e3, c1, c2]; simp [Tree.charges, charge_cons, charge_nil, hr]
    · rw [e1, c1]; simp [Tree.tops, charge_cons, charge_nil, hr, Tree.id]
theorem billedList {E : Env σ L} {fuel : Nat} : ∀ cs : List (Tree L), (idsList cs).Nodup → ∀ c ∈ cs, Billed E fuel c
  | [], _, c, hc => by simp at hc
  | c :: cs, hn, c', hc' => by
    simp only [idsList, List.nodup_append] at hn
    have h1 := billed (E := E) (fuel := fuel) c hn.1
    have h2 := billedList (E := E) (fuel := fuel) cs hn.2.1
    rcases List.mem_cons.1 hc' with rfl | h
    · exact h1
    · exact h2 _ h
end

/-! ### The theorems -/

/-- **What TotalCost counts, exactly.** For every tree of distinct node objects, all leaves, all Costs, RUNNING
included: one tick adds, for every execution of a leaf or decorator, its Cost multiplied by one plus the number of
composites above it (up to the nearest decorator). -/
theorem C09_totalCost_exact {t : Tree L} (hn : t.ids.Nodup) {st : St σ} {s st'}
    (h : exec E fuel t st = .ok (s, st')) :
    st'.totalCost = st.totalCost +
      ((t.charges 1).map fun p => p.2 * (st.cost p.1 * ((st'.ticksAll p.1 : Int) - st.ticksAll p.1))).sum :=
  (billed t hn _ _ _ h).1.total

/-- The Cost a composite shows after a tick: the Costs of the leaves and decorators executed below it, not counting
anything below a decorator. -/
theorem C09_composite_cost_exact {k : CKind} {id : Id} {cs : List (Tree L)} (hn : (Tree.comp k id cs).ids.Nodup)
    {st : St σ} {s st'} (h : exec E fuel (.comp k id cs) st = .ok (s, st')) :
    st'.cost id = ((topsList cs).map fun p => p.2 * (st.cost p.1 * ((st'.ticksAll p.1 : Int) - st.ticksAll p.1))).sum :=
  (billed _ hn _ _ _ h).2

mutual
/-- The tree has no composite. -/
def Tree.NoComp : Tree L → Prop
  | .leaf _ _ => True
  | .comp _ _ _ => False
  | .deco _ _ c => c.NoComp
  | .emptyDeco _ _ => True
end

theorem charges_noComp : ∀ (t : Tree L), t.NoComp → t.charges 1 = (t.decos ++ t.leaves).map (·, 1)
  | .leaf i a, _ => by simp [Tree.charges, Tree.decos, Tree.leaves]
  | .comp _ _ _, h => h.elim
  | .deco k i c, h => by
    simp only [Tree.charges, Tree.decos, Tree.leaves]
    rw [charges_noComp c h]; simp
  | .emptyDeco k i, _ => by simp [Tree.charges, Tree.decos, Tree.leaves]

theorem sum_map_mul_eq {α} {l : List α} {f g : α → Int} (h : ∀ x ∈ l, f x = g x) :
    (l.map f).sum = (l.map g).sum := by rw [List.map_congr_left h]

/-- What remains of C09: in a tree without composites whose decorators cost nothing, TotalCost grows by exactly the
Costs of the leaf executions. Missing: trees with a composite (`C09_totalCost_violation`, and exactly
`C09_totalCost_exact`). -/
theorem C09_no_composite_partial {t : Tree L} (hn : t.ids.Nodup) (hc : t.NoComp) {st : St σ} {s st'}
    (hd : ∀ i ∈ t.decos, st.cost i = 0) (h : exec E fuel t st = .ok (s, st')) :
    st'.totalCost = st.totalCost +
      (t.leaves.map fun i => st.cost i * ((st'.ticksAll i : Int) - st.ticksAll i)).sum := by
  rw [C09_totalCost_exact hn h, charges_noComp t hc]
  congr 1
  simp only [List.map_append, List.map_map, List.sum_append]
  have : (List.map ((fun p : Id × Int => p.2 * (st.cost p.1 * ((st'.ticksAll p.1 : Int) - st.ticksAll p.1))) ∘
      fun x => (x, 1)) t.decos).sum = 0 := by
    have : ∀ l : List Id, (∀ i ∈ l, st.cost i = 0) →
      (List.map ((fun p : Id × Int => p.2 * (st.cost p.1 * ((st'.ticksAll p.1 : Int) - st.ticksAll p.1))) ∘
      fun x => (x, 1)) l).sum = 0 := by
      intro l hl
      induction l with
      | nil => rfl
      | cons a l ih => simp [ih (fun i hi => hl i (by simp [hi])), hl a (by simp)]
    exact this _ hd
  rw [this]
  simp [Function.comp_def]

/-- Nested composites: a leaf of Cost 5 inside two Sequences and a leaf of Cost 7 inside Priority inside Sequence;
6 and 8 are never executed. 15 = 3·5, 21 = 3·7. -/
theorem C09_nested_violation :
    ∃ st', exec constEnv 0 (.comp .sequence 0 [.comp .sequence 1 [.leaf 5 .success],
        .comp .priority 2 [.leaf 7 .success, .leaf 8 .success], .leaf 9 .failure, .leaf 6 .success])
      { user := 0, cost := upd (upd (upd (fun _ => 0) 5 5) 7 7) 6 100 } = .ok (.failure, st') ∧
      st'.totalCost = 3 * 5 + 3 * 7 ∧ st'.cost 0 = 12 ∧ st'.cost 1 = 5 ∧ st'.cost 2 = 7 := by
  obtain ⟨st', h, h2⟩ := ran (fun st => (st.totalCost, st.cost 0, st.cost 1, st.cost 2)) (a := (36, 12, 5, 7))
    (show view _ (exec constEnv 0 (.comp .sequence 0 [.comp .sequence 1 [.leaf 5 .success],
        .comp .priority 2 [.leaf 7 .success, .leaf 8 .success], .leaf 9 .failure, .leaf 6 .success])
      { user := 0, cost := upd (upd (upd (fun _ => 0) 5 5) 7 7) 6 100 }) = some (.failure, _) by decide +kernel)
  simp only [Prod.mk.injEq] at h2
  exact ⟨st', h, by rw [h2.1]; decide, h2.2.1, h2.2.2.1, h2.2.2.2⟩

/-- Non-vacuity of the exact law: a decorator inside two composites stops the double charge of the leaf below. -/
example : (Tree.comp .sequence 0 [.comp .orNode 1 [.deco (.repeater 3) 2 (.leaf 3 ()), .leaf 4 ()]]).charges 1
    = [(2, 3), (3, 1), (4, 3)] ∧
    (Tree.comp .sequence 0 [.comp .orNode 1 [.deco (.repeater 3) 2 (.leaf 3 ()), .leaf 4 ()]]).ids.Nodup := by
  simp [Tree.charges, chargesList, Tree.ids, idsList]
example : (Tree.deco (.repeater 3) 2 (.deco .inverter 1 (.leaf 3 ()))).NoComp := trivial
example : ∃ st', exec constEnv 0 (.deco (.repeater 3) 2 (.leaf 3 .success)) { user := 0, cost := upd (fun _ => 0) 3 4 }
    = .ok (.success, st') ∧ st'.totalCost = 12 := ran (·.totalCost) (by decide +kernel)

/-! ## C10: the counter a Limiter keeps -/

/-- The counter key `i` of a Limiter after a tick that let its child run: 1 if the child completed, else 0. The
node is then closed, and reset when it is opened again, which is why it never limits. -/
theorem C10_limiter_counts (hE : E.NoRunning) {c : Tree L} {id : Id} {m : Int} (hm : 1 ≤ m)
    (ht : (Tree.deco (.limiter m) id c).Acyclic) {st : St σ} (hc : Closed (.deco (.limiter m) id c) st) {s st'}
    (h : exec E fuel (.deco (.limiter m) id c) st = .ok (s, st')) :
    st'.cnt id = some (if s = .success ∨ s = .failure then 1 else 0) ∧ st'.isOpen id = false := by
  have hcl : st.isOpen id = false := hc id (by simp [Tree.ids])
  obtain ⟨_, _, _, hA⟩ := exec_sound hE fuel _ ht _ _ _ hc h
  refine ⟨?_, hA.closed id (by simp [Tree.ids])⟩
  rw [exec] at h
  simp only [Tree.Acyclic] at ht
  have hcnt := bodyStart_cnt (E := E) hcl (k := .limiter m) (by simp) (by simp)
  have hclosed : Closed c (bodyStart id (openHook E (.limiter m) id) st) := fun j hj => by
    rw [bodyStart_open (E := E) (.deco _) st (fun e : j = id => ht.1 (e ▸ hj))]; exact hc j (by simp [Tree.ids, hj])
  have hfin : ∀ {s1 st1 st2}, closeIfDone id s1 (afterTick id s1 st1) = .ok st2 → (st2 : St σ).cnt = st1.cnt := by
    intro s1 st1 st2 hx
    cases s1
    case running => simp [closeIfDone, afterTick] at hx; rw [← hx]
    all_goals
      simp only [closeIfDone, afterTick] at hx
      rw [if_neg (by simp)] at hx
      split at hx
      · cases hx
      · simp only [Except.ok.injEq] at hx; rw [← hx]
  simp only [execute] at h
  rw [show countTick id (openIfClosed id (openHook E (.limiter m) id) (enter id st))
    = bodyStart id (openHook E (.limiter m) id) st from rfl] at h
  simp only [decoTick, hcnt] at h
  rw [if_pos (by omega)] at h
  cases he : exec E fuel c (bodyStart id (openHook E (.limiter m) id) st) with
  | error e => rw [he] at h; cases h
  | ok p =>
    obtain ⟨s1, st2⟩ := p
    obtain ⟨_, _, _, hAc⟩ := exec_sound hE fuel c ht.2 _ _ _ hclosed he
    have hf := hAc.frameCnt id ht.1
    rw [hcnt] at hf
    rw [he] at h; simp only at h
    by_cases hs : s1 = .success ∨ s1 = .failure
    · rw [if_pos hs] at h
      simp only at h
      split at h
      · cases h
      · rename_i hx
        simp only [Except.ok.injEq, Prod.mk.injEq] at h
        rw [← h.2, hfin hx, ← h.1, if_pos hs]; simp
    · rw [if_neg hs] at h
      simp only at h
      split at h
      · cases h
      · rename_i hx
        simp only [Except.ok.injEq, Prod.mk.injEq] at h
        rw [← h.2, hfin hx, ← h.1, if_neg hs, hf]

example : ∃ st', exec constEnv 0 (.deco (.limiter 1) 0 (.leaf 1 .failure)) { user := 0 }
    = .ok (.failure, st') ∧ st'.cnt 0 = some 1 := ran (·.cnt 0) (by decide +kernel)
end Verif.BT
