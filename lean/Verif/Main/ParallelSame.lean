import Verif.Main.ParallelProps

/-!
# C86: lemmas on several processes that write the same file
-/
namespace Verif.Main.Disk
open Verif.Out

variable {D K S : Type}

/-- (proof) A process that does not touch the file `p` any more. -/
inductive Never (d0 : Disk) (fix : Path → Prop) (p : Path) : Act → Prop
  | ended (e) : Never d0 fix p (.ended e)
  | look {q k} : fix q → Never d0 fix p (k (d0 q)) → Never d0 fix p (.look q k)
  | trunc {q k} : q ≠ p → Never d0 fix p k → Never d0 fix p (.trunc q k)
  | put {q i c k} : q ≠ p → Never d0 fix p k → Never d0 fix p (.put q i c k)

/-- (proof) A process that has written the first `o` characters of `t` to `p`, and goes on. -/
inductive At (d0 : Disk) (fix : Path → Prop) (p : Path) (t : Text) : Nat → Act → Prop
  | done {o a} : o = t.length → Never d0 fix p a → At d0 fix p t o a
  | put {o c k} : t[o]? = some c → At d0 fix p t (o + 1) k → At d0 fix p t o (.put p o c k)

/-- (proof) A process that has still to open `p`. -/
inductive Later (d0 : Disk) (fix : Path → Prop) (p : Path) (t : Text) : Act → Prop
  | look {q k} : fix q → Later d0 fix p t (k (d0 q)) → Later d0 fix p t (.look q k)
  | trunc {q k} : q ≠ p → Later d0 fix p t k → Later d0 fix p t (.trunc q k)
  | put {q i c k} : q ≠ p → Later d0 fix p t k → Later d0 fix p t (.put q i c k)
  | hit {k} : At d0 fix p t 0 k → Later d0 fix p t (.trunc p k)

section
variable {d0 : Disk} {fix : Path → Prop} {p : Path} {t : Text}

theorem Never.step {a : Act} (h : Never d0 fix p a) {d : Disk} (hd : ∀ q, fix q → d q = d0 q) :
    Never d0 fix p (step d a).2 ∧ (Disk.step d a).1 p = d p := by
  cases h with
  | ended e => exact ⟨.ended e, rfl⟩
  | @look q k hq hk => refine ⟨?_, rfl⟩; show Never d0 fix p (k (d q)); rw [hd _ hq]; exact hk
  | trunc hq hk => exact ⟨hk, set_other _ _ hq.symm⟩
  | put hq hk => exact ⟨hk, set_other _ _ hq.symm⟩

/-- (proof) -/
theorem At.of_put {o o' : Nat} {c : Char} {k : Act} (h : At d0 fix p t o' (.put p o c k)) : o' = o := by
  cases h with
  | done _ hn => cases hn with | put hq _ => exact absurd rfl hq
  | put => rfl

theorem At.le {o : Nat} {a : Act} (h : At d0 fix p t o a) : o ≤ t.length := by
  cases h with
  | done h _ => omega
  | put h _ => exact Nat.le_of_lt (List.getElem?_eq_some_iff.1 h).1

theorem never_puts {q : Path} (hq : q ≠ p) {k : Act} (hk : Never d0 fix p k) : ∀ (u : Text) (i : Nat), Never d0 fix p (puts q i u k)
  | [], _ => hk
  | _ :: u, i => .put hq (never_puts hq hk u (i + 1))

theorem later_puts {q : Path} (hq : q ≠ p) {k : Act} (hk : Later d0 fix p t k) : ∀ (u : Text) (i : Nat), Later d0 fix p t (puts q i u k)
  | [], _ => hk
  | _ :: u, i => .put hq (later_puts hq hk u (i + 1))

theorem at_puts {k : Act} (hk : Never d0 fix p k) : ∀ (u : Text) (i : Nat), t.drop i = u → i ≤ t.length → At d0 fix p t i (puts p i u k)
  | [], i, h, hi => .done (by have := List.drop_eq_nil_iff.1 h; omega) hk
  | c :: u, i, h, hi => by
    have hc : t[i]? = some c := by
      have : (t.drop i)[0]? = some c := by rw [h]; rfl
      simpa using this
    refine .put hc (at_puts hk u (i + 1) ?_ (List.getElem?_eq_some_iff.1 hc).1)
    rw [← List.tail_drop, h]; rfl

theorem Follows.never {a : Act} {l : List (Path × Text × Bool)} (h : Follows d0 fix a l) : p ∉ touched l → Never d0 fix p a := by
  induction h with
  | ended e => intro _; exact .ended e
  | look hq _ ih => intro hp; exact .look hq (ih hp)
  | @save q u b k l _ ih =>
    intro hp
    cases b
    · simp only [touched, Bool.false_eq_true, if_false, List.mem_cons, not_or] at hp
      exact .trunc (Ne.symm hp.1) (never_puts (Ne.symm hp.1) (ih hp.2) _ _)
    · simp only [touched, if_true, List.mem_singleton] at hp
      exact .trunc (Ne.symm hp) (never_puts (Ne.symm hp) (.ended _) _ _)

theorem Follows.later {a : Act} {l : List (Path × Text × Bool)} (h : Follows d0 fix a l) : (l.map (·.1)).Nodup → p ∈ touched l →
    ∃ t, (∀ d, play 0 l none d p = some t) ∧ Later d0 fix p t a := by
  induction h with
  | ended e => intro _ hp; simp [touched] at hp
  | look hq _ ih =>
    intro hn hp
    obtain ⟨t, h1, h2⟩ := ih hn hp
    exact ⟨t, h1, .look hq h2⟩
  | @save q u b k l hk ih =>
    intro hn hp
    simp only [List.map_cons, List.nodup_cons] at hn
    by_cases e : p = q
    · subst e
      cases b
      · refine ⟨u, fun d => ?_, .hit (at_puts ?_ u 0 rfl (Nat.zero_le _))⟩
        · rw [play_cons]
          simp only [Bool.false_eq_true, if_false]
          rw [play_off _ _ _ _ _ hn.1, set_get]
        · exact hk.never fun h => hn.1 (touched_sub _ _ h)
      · exact ⟨u, fun d => set_get d p u, .hit (at_puts (.ended _) u 0 rfl (Nat.zero_le _))⟩
    · cases b
      · simp only [touched, Bool.false_eq_true, if_false, List.mem_cons, e, false_or] at hp
        obtain ⟨t, h1, h2⟩ := ih hn.2 hp
        exact ⟨t, fun d => h1 _, .trunc (Ne.symm e) (later_puts (Ne.symm e) h2 _ _)⟩
      · simp [touched, e] at hp

/-- A text that is being written, perhaps several times at once: it may be cut off, and have zeros in gaps. (specification) -/
def Torn (f t : Text) : Prop := f.length ≤ t.length ∧ ∀ (x : Nat) (c : Char), f[x]? = some c → t[x]? = some c ∨ c = Char.ofNat 0

/-- (proof) The state of the file `p` while the processes `Q` write `t` to it. -/
def Inv (d0 : Disk) (fix : Path → Prop) (p : Path) (t : Text) (Q : Nat → Prop) (d : Disk) (as : Nat → Act) : Prop :=
  (∀ i, Q i → Later d0 fix p t (as i) ∨ ∃ o, At d0 fix p t o (as i)) ∧
  ((d p = d0 p ∧ ∀ i, Q i → Later d0 fix p t (as i)) ∨ ∃ f : Text, d p = some f ∧ Torn f t ∧
    ∀ x, x < t.length → f[x]? = t[x]? ∨ ∃ i o, Q i ∧ o ≤ x ∧ At d0 fix p t o (as i))

theorem getElem?_putAt {f : Text} {o : Nat} {c : Char} {x : Nat} (hx : x ≠ o) (hg : x < f.length ∨ o < x) : (putAt f o c)[x]? = f[x]? := by
  unfold putAt
  split
  · rw [List.getElem?_set_ne (Ne.symm hx)]
  · rename_i ho
    have ho' : f.length ≤ o := Nat.le_of_not_lt ho
    rcases hg with h | h
    · rw [List.append_assoc, List.getElem?_append_left h]
    · rw [List.getElem?_eq_none (by simp; omega), List.getElem?_eq_none (by omega)]

theorem getElem?_putAt_self {f : Text} {o : Nat} {c : Char} : (putAt f o c)[o]? = some c := by
  unfold putAt
  split
  · rename_i h; simp [h]
  · rename_i h
    have : (f ++ List.replicate (o - f.length) (Char.ofNat 0)).length = o := by simp; omega
    rw [List.getElem?_append_right (by omega), this]
    simp

theorem torn_putAt {f : Text} {o : Nat} {c : Char} (h : Torn f t) (hc : t[o]? = some c) : Torn (putAt f o c) t := by
  have ho : o < t.length := (List.getElem?_eq_some_iff.1 hc).1
  refine ⟨?_, fun x c' hx => ?_⟩
  · have h1 := h.1
    unfold putAt
    split
    · rw [List.length_set]; omega
    · simp; omega
  · by_cases e : x = o
    · rw [e, getElem?_putAt_self] at hx
      cases hx
      exact .inl (by rw [e]; exact hc)
    by_cases hl : x < f.length ∨ o < x
    · rw [getElem?_putAt e hl] at hx
      exact h.2 x c' hx
    · right
      unfold putAt at hx
      rw [if_neg (by omega), List.append_assoc, List.getElem?_append_right (by omega), List.getElem?_append_left (by simp; omega),
        List.getElem?_replicate] at hx
      split at hx
      · cases hx; rfl
      · cases hx

theorem Inv.step {Q : Nat → Prop} {d : Disk} {as : Nat → Act} (h : Inv d0 fix p t Q d as) (hd : ∀ q, fix q → d q = d0 q) (hp : ¬ fix p) {j : Nat} (hj : Q j) :
    Inv d0 fix p t Q (step d (as j)).1 (fun i => if i = j then (Disk.step d (as j)).2 else as i) := by
  obtain ⟨h1, h2⟩ := h
  -- the process keeps its phase and the file
  have keep : ∀ (f' : Option Text), (Disk.step d (as j)).1 p = f' → f' = d p →
      (Later d0 fix p t (as j) → Later d0 fix p t (Disk.step d (as j)).2) →
      (∀ o, At d0 fix p t o (as j) → At d0 fix p t o (Disk.step d (as j)).2) →
      Inv d0 fix p t Q (Disk.step d (as j)).1 (fun i => if i = j then (Disk.step d (as j)).2 else as i) := by
    intro f' e1 e2 k1 k2
    have kl : ∀ i, Later d0 fix p t (as i) → Later d0 fix p t (if i = j then (Disk.step d (as j)).2 else as i) := fun i hi => by
      by_cases e : i = j
      · rw [if_pos e]; exact k1 (e ▸ hi)
      · rw [if_neg e]; exact hi
    have ka : ∀ i o, At d0 fix p t o (as i) → At d0 fix p t o (if i = j then (Disk.step d (as j)).2 else as i) := fun i o hi => by
      by_cases e : i = j
      · rw [if_pos e]; exact k2 o (e ▸ hi)
      · rw [if_neg e]; exact hi
    refine ⟨fun i hi => (h1 i hi).imp (kl i) fun ⟨o, ho⟩ => ⟨o, ka i o ho⟩, ?_⟩
    rcases h2 with ⟨h0, h2⟩ | ⟨f, g1, g2, g3⟩
    · exact .inl ⟨by rw [e1, e2, h0], fun i hi => kl i (h2 i hi)⟩
    · refine .inr ⟨f, by rw [e1, e2, g1], g2, fun x hx => (g3 x hx).imp id ?_⟩
      rintro ⟨i, o, hi, ho, ha⟩
      exact ⟨i, o, hi, ho, ka i o ha⟩
  have notAt : ∀ {a : Act}, Later d0 fix p t a → ∀ o, ¬ At d0 fix p t o a := by
    intro a hl
    induction hl with
    | look hq hk ih =>
      intro o h
      cases h with
      | done e hn => cases hn with | look _ hn => exact ih o (.done e hn)
    | trunc hq hk ih =>
      intro o h
      cases h with
      | done e hn => cases hn with | trunc _ hn => exact ih o (.done e hn)
    | put hq hk ih =>
      intro o h
      cases h with
      | done e hn => cases hn with | put _ hn => exact ih o (.done e hn)
      | put => exact hq rfl
    | hit hk =>
      intro o h
      cases h with
      | done e hn => cases hn with | trunc hq _ => exact hq rfl
  rcases h1 j hj with hl | ⟨o, ha⟩
  · have hna := notAt hl
    generalize haj : as j = a at hl hna keep
    cases hl with
    | @look q k hq hk =>
      refine keep _ rfl rfl (fun _ => ?_) fun o ho => absurd ho (hna o)
      show Later d0 fix p t (k (d q))
      rw [hd _ hq]; exact hk
    | trunc hq hk => exact keep _ rfl (set_other _ _ hq.symm) (fun _ => hk) fun o ho => absurd ho (hna o)
    | put hq hk => exact keep _ rfl (set_other _ _ hq.symm) (fun _ => hk) fun o ho => absurd ho (hna o)
    | @hit k hk =>
      refine ⟨fun i hi => ?_, .inr ⟨[], set_get _ _ _, ⟨Nat.zero_le _, fun x _ h => by simp at h⟩, fun x _ => .inr ⟨j, 0, hj, Nat.zero_le _, ?_⟩⟩⟩
      · by_cases e : i = j
        · simp only [if_pos e]; exact .inr ⟨0, hk⟩
        · simp only [if_neg e]; exact h1 i hi
      · simp only [if_true]; exact hk
  · have hnl : ¬ Later d0 fix p t (as j) := fun h => notAt h o ha
    generalize haj : as j = a at ha hnl keep
    cases ha with
    | done e hn =>
      obtain ⟨s1, s2⟩ := hn.step hd
      refine keep _ rfl s2 (fun h => absurd h hnl) fun o' ho' => ?_
      cases ho' with
      | done e' _ => exact .done e' s1
      | put => cases hn with | put hq _ => exact absurd rfl hq
    | @put _ c k hc hk =>
      have ho : o < t.length := (List.getElem?_eq_some_iff.1 hc).1
      refine ⟨fun i hi => ?_, .inr ?_⟩
      · by_cases e : i = j
        · simp only [if_pos e]; exact .inr ⟨o + 1, hk⟩
        · simp only [if_neg e]; exact h1 i hi
      · rcases h2 with ⟨_, h2⟩ | ⟨f, g1, g2, g3⟩
        · exact absurd (haj ▸ h2 j hj) hnl
        · refine ⟨putAt f o c, ?_, torn_putAt g2 hc, fun x hx => ?_⟩
          · show d.set p (putAt ((d p).getD []) o c) p = _
            rw [set_get, g1]; rfl
          · by_cases hxo : x = o
            · left; rw [hxo, getElem?_putAt_self, hc]
            · rcases g3 x hx with h | ⟨i, o', hi, ho', ha'⟩
              · left
                rw [getElem?_putAt hxo, h]
                left
                rw [List.getElem?_eq_getElem hx] at h
                exact (List.getElem?_eq_some_iff.1 h).1
              · right
                by_cases e : i = j
                · rw [e, haj] at ha'
                  have : o' = o := ha'.of_put
                  refine ⟨j, o + 1, hj, by omega, ?_⟩
                  simp only [if_true]; exact hk
                · exact ⟨i, o', hi, ho', by simp only [if_neg e]; exact ha'⟩

/-- (proof) A step of another process. -/
theorem Inv.other {Q : Nat → Prop} {d : Disk} {as : Nat → Act} (h : Inv d0 fix p t Q d as) {d' : Disk} {as' : Nat → Act} (hd : d' p = d p)
    (has : ∀ i, Q i → as' i = as i) : Inv d0 fix p t Q d' as' := by
  obtain ⟨h1, h2⟩ := h
  refine ⟨fun i hi => by rw [has i hi]; exact h1 i hi, ?_⟩
  rcases h2 with ⟨h0, h2⟩ | ⟨f, g1, g2, g3⟩
  · exact .inl ⟨by rw [hd, h0], fun i hi => by rw [has i hi]; exact h2 i hi⟩
  · refine .inr ⟨f, by rw [hd, g1], g2, fun x hx => (g3 x hx).imp id ?_⟩
    rintro ⟨i, o, hi, ho, ha⟩
    exact ⟨i, o, hi, ho, by rw [has i hi]; exact ha⟩

theorem together_same {Q : Nat → Prop} {W : Nat → Path → Prop} (hfix : ∀ i q, W i q → ¬ fix q) (hp : ¬ fix p) : ∀ (who : List Nat) (d : Disk)
    (as : Nat → Act), (∀ i, Within d0 fix (W i) (W i) (as i)) → (∀ q, fix q → d q = d0 q) → (∀ i ∈ who, Q i ∨ ¬ W i p) → Inv d0 fix p t Q d as →
    Inv d0 fix p t Q (together who (d, as)).1 (together who (d, as)).2
  | [], _, _, _, _, _, h => h
  | j :: who, d, as, hw, hd, hN, h => by
    obtain ⟨s1, s2⟩ := (hw j).step hd
    refine together_same hfix hp who _ _ (fun i => ?_) (fun q hq => by rw [s2 q fun h => hfix j q h hq]; exact hd q hq)
      (fun i hi => hN i (by simp [hi])) ?_
    · by_cases e : i = j
      · simp only [if_pos e]; rw [e]; exact s1
      · simp only [if_neg e]; exact hw i
    · by_cases hq : Q j
      · exact h.step hd hp hq
      · have hw : ¬ W j p := (hN j (by simp)).resolve_left hq
        refine h.other (s2 p hw) fun i hi => ?_
        have : i ≠ j := fun e => hq (e ▸ hi)
        simp only [if_neg this]

theorem together_never {W : Nat → Path → Prop} (hfix : ∀ i q, W i q → ¬ fix q) : ∀ (who : List Nat) (d : Disk) (as : Nat → Act),
    (∀ i, Within d0 fix (W i) (W i) (as i)) → (∀ q, fix q → d q = d0 q) → (∀ i ∈ who, Never d0 fix p (as i) ∨ ¬ W i p) →
    (together who (d, as)).1 p = d p
  | [], _, _, _, _, _ => rfl
  | j :: who, d, as, hw, hd, h => by
    obtain ⟨s1, s2⟩ := (hw j).step hd
    have hj : (step d (as j)).1 p = d p := by
      rcases h j (by simp) with hn | hn
      · exact (hn.step hd).2
      · exact s2 p hn
    refine (together_never hfix who _ _ (fun i => ?_) (fun q hq => by rw [s2 q fun h => hfix j q h hq]; exact hd q hq) (fun i hi => ?_)).trans hj
    · by_cases e : i = j
      · simp only [if_pos e]; rw [e]; exact s1
      · simp only [if_neg e]; exact hw i
    · by_cases e : i = j
      · simp only [if_pos e]
        rw [e]
        rcases h j (by simp) with hn | hn
        · exact .inl (hn.step hd).1
        · exact .inr hn
      · simp only [if_neg e]; exact h i (by simp [hi])

/-- (proof) When all have ended the file is complete. -/
theorem Inv.final {Q : Nat → Prop} {d : Disk} {as : Nat → Act} (h : Inv d0 fix p t Q d as) {i0 : Nat} (hN : Q i0) (he : ∀ i, Q i → ∃ e, as i = .ended e) : d p = some t := by
  have hat : ∀ i o, Q i → At d0 fix p t o (as i) → o = t.length := fun i o hi ha => by
    obtain ⟨e, he⟩ := he i hi
    rw [he] at ha
    cases ha with | done h _ => exact h
  rcases h.2 with ⟨_, h2⟩ | ⟨f, g1, g2, g3⟩
  · obtain ⟨e, he⟩ := he i0 hN
    have := h2 i0 hN
    rw [he] at this
    cases this
  · rw [g1]
    congr 1
    apply List.ext_getElem?
    intro x
    by_cases hx : x < t.length
    · rcases g3 x hx with h | ⟨i, o, hi, ho, ha⟩
      · exact h
      · have := hat i o hi ha; omega
    · have := g2.1
      rw [List.getElem?_eq_none (by omega), List.getElem?_eq_none (by omega)]

/-- (proof) Until the file is complete it is as before, or torn. -/
theorem Inv.torn {Q : Nat → Prop} {d : Disk} {as : Nat → Act} (h : Inv d0 fix p t Q d as) : d p = d0 p ∨ ∃ f, d p = some f ∧ Torn f t := by
  rcases h.2 with ⟨h, _⟩ | ⟨f, g1, g2, _⟩
  · exact .inl h
  · exact .inr ⟨f, g1, g2⟩

end

end Verif.Main.Disk
