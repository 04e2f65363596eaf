import Verif.BT.Laws
/-! How often a node can be executed within one tick. -/
namespace Verif.BT
variable {σ L : Type}

/-- Number of completed executions of `j` in a trace. -/
def occ (j : Id) (tr : List Ev) : Nat := (tr.filter (fun e => e.1 = j)).length

theorem occ_append (j : Id) (a b : List Ev) : occ j (a ++ b) = occ j a + occ j b := by simp [occ]
theorem occ_single (j i : Id) (s : Status) : occ j [(i, s)] = if i = j then 1 else 0 := by
  simp only [occ, List.filter_cons, List.filter_nil]; split <;> simp_all

section
variable {E : Env σ L} (j : Id)

mutual
theorem big_occ : ∀ {t : Tree L} {u tr s u'}, Big E t u tr s u' → t.Bounded → occ j tr ≤ t.maxExec j
  | .leaf id a, u, _, s, u', .leaf ha, hb => by rw [occ_single, Tree.maxExec]; omega
  | .comp _ id cs, u, _, s, u', .sequence h, hb => by
    rw [Tree.Bounded] at hb; have := bigseq_occ h hb
    rw [occ_append, occ_single, Tree.maxExec]; omega
  | .comp _ id cs, u, _, s, u', .priority h, hb => by
    rw [Tree.Bounded] at hb; have := bigpri_occ h hb
    rw [occ_append, occ_single, Tree.maxExec]; omega
  | .comp _ id cs, u, _, s, u', .orNode h _ _, hb => by
    rw [Tree.Bounded] at hb; have := bigall_occ h hb
    rw [occ_append, occ_single, Tree.maxExec]; omega
  | .deco _ id c, u, _, _, u', .invSuccess h, hb => by
    rw [Tree.Bounded] at hb; have := big_occ h hb.2
    rw [occ_append, occ_single, Tree.maxExec, DKind.maxRuns]; omega
  | .deco _ id c, u, _, _, u', .invFailure h, hb => by
    rw [Tree.Bounded] at hb; have := big_occ h hb.2
    rw [occ_append, occ_single, Tree.maxExec, DKind.maxRuns]; omega
  | .deco _ id c, u, _, _, u', .invOther h _ _, hb => by
    rw [Tree.Bounded] at hb; have := big_occ h hb.2
    rw [occ_append, occ_single, Tree.maxExec, DKind.maxRuns]; omega
  | .deco _ id c, u, _, s, u', .limiterRun hm h, hb => by
    rw [Tree.Bounded] at hb; have := big_occ h hb.2
    rw [occ_append, occ_single, Tree.maxExec, DKind.maxRuns]; omega
  | .deco _ id c, u, _, _, _, .limiterStop hm, hb => by
    rw [occ_single, Tree.maxExec]; omega
  | .deco _ id c, u, _, _, _, .repeater0, hb => by
    rw [occ_single, Tree.maxExec]; omega
  | .deco _ id c, u, _, s, u', .repeater h, hb => by
    rw [Tree.Bounded] at hb; have := bigloop_occ h hb.2 hb.1
    rw [occ_append, occ_single, Tree.maxExec, DKind.maxRuns]; omega
  | .deco _ id c, u, _, s, u', .untilFailure h, hb => by
    rw [Tree.Bounded] at hb; have := bigloop_occ h hb.2 hb.1
    rw [occ_append, occ_single, Tree.maxExec, DKind.maxRuns]; omega
  | .deco _ id c, u, _, s, u', .untilSuccess h, hb => by
    rw [Tree.Bounded] at hb; have := bigloop_occ h hb.2 hb.1
    rw [occ_append, occ_single, Tree.maxExec, DKind.maxRuns]; omega
  | .deco _ id c, u, _, s, u', .maxTimeOk hm h, hb => by
    rw [Tree.Bounded] at hb; have := big_occ h hb.2
    rw [occ_append, occ_single, Tree.maxExec, DKind.maxRuns]; omega
  | .deco _ id c, u, _, _, u', .maxTimeLate hm h, hb => by
    rw [Tree.Bounded] at hb; have := big_occ h hb.2
    rw [occ_append, occ_single, Tree.maxExec, DKind.maxRuns]; omega
  | .emptyDeco k id, u, _, _, _, .emptyDeco hk, hb => by rw [occ_single, Tree.maxExec]; omega
  | .emptyDeco _ id, u, _, _, _, .emptyMaxTime, hb => by rw [occ_single, Tree.maxExec]; omega
theorem bigseq_occ : ∀ {cs : List (Tree L)} {u tr s u'}, BigSeq E cs u tr s u' → BoundedList cs →
    occ j tr ≤ maxExecList j cs
  | [], u, _, _, _, .done, _ => by simp [occ]
  | c :: cs, u, _, s, u', .stop h hn, hb => by
    rw [BoundedList] at hb; have := big_occ h hb.1; rw [maxExecList]; omega
  | c :: cs, u, _, s, u', .next h h', hb => by
    rw [BoundedList] at hb; have := big_occ h hb.1; have := bigseq_occ h' hb.2
    rw [maxExecList, occ_append]; omega
theorem bigpri_occ : ∀ {cs : List (Tree L)} {u tr s u'}, BigPri E cs u tr s u' → BoundedList cs →
    occ j tr ≤ maxExecList j cs
  | [], u, _, _, _, .done, _ => by simp [occ]
  | c :: cs, u, _, s, u', .stop h hn, hb => by
    rw [BoundedList] at hb; have := big_occ h hb.1; rw [maxExecList]; omega
  | c :: cs, u, _, s, u', .next h h', hb => by
    rw [BoundedList] at hb; have := big_occ h hb.1; have := bigpri_occ h' hb.2
    rw [maxExecList, occ_append]; omega
theorem bigall_occ : ∀ {cs : List (Tree L)} {u tr ss u'}, BigAll E cs u tr ss u' → BoundedList cs →
    occ j tr ≤ maxExecList j cs
  | [], u, _, _, _, .done, _ => by simp [occ]
  | c :: cs, u, _, _, u', .next h h', hb => by
    rw [BoundedList] at hb; have := big_occ h hb.1; have := bigall_occ h' hb.2
    rw [maxExecList, occ_append]; omega
theorem bigloop_occ : ∀ {r : Rep} {c : Tree L} {m u tr s u'}, BigLoop E r c m u tr s u' → c.Bounded → 0 ≤ m →
    occ j tr ≤ m.toNat * c.maxExec j
  | r, c, m, u, _, s, u', .last hm h hl, hb, h0 => by
    have := big_occ h hb
    have h1 : 1 ≤ m.toNat := by omega
    have := Nat.mul_le_mul_right (c.maxExec j) h1
    omega
  | r, c, m, u, _, s, u', .again hm h ha h1 hL, hb, h0 => by
    have h2 := big_occ h hb
    have h3 := bigloop_occ hL hb (by rw [if_neg (by omega)]; omega)
    rw [if_neg (by omega)] at h3
    rw [occ_append]
    have e : m.toNat = (m - 1).toNat + 1 := by omega
    rw [e, Nat.add_mul]; omega
end
end

end Verif.BT
