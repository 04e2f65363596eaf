import Verif.Main.ParallelClaims
import Mathlib.Data.List.TakeWhile

/-!
# C86: the first runs of a robot, at the same time

The same command several times for a robot that has no pickle: all that find none write one, at the same time; those that find one that is
not complete end with an exception.
-/
namespace Verif.Main.Disk
open Verif.Out

variable {D K S : Type}

/-! ## Lemmas -/

/-- (proof) what process `j` finds in the file `p` when it makes its first step -/
def found (who : List Nat) (d : Disk) (as : Nat → Act) (p : Path) (j : Nat) : Option Text := (together (who.takeWhile (· ≠ j)) (d, as)).1 p

theorem together_append : ∀ (l r : List Nat) (s : Disk × (Nat → Act)), together (l ++ r) s = together r (together l s)
  | [], _, _ => rfl
  | _ :: l, r, (_, _) => together_append l r _

/-- (proof) The first look of a process may be foreseen. -/
theorem foreseen (p q : Path) (b : Nat → Option Text → Act) (v : Nat → Option Text) : ∀ (who : List Nat) (N : Nat → Prop) (d : Disk) (as as' : Nat → Act),
    (∀ j, N j → as j = .look p (b j) ∧ as' j = .look q (fun _ => b j (v j))) → (∀ j, ¬ N j → as' j = as j) →
    (∀ j ∈ who, N j → v j = found who d as p j) →
    (together who (d, as')).1 = (together who (d, as)).1 ∧ ∀ j, (j ∈ who ∨ ¬ N j) → (together who (d, as')).2 j = (together who (d, as)).2 j
  | [], N, d, as, as', _, h2, _ => ⟨rfl, fun j hj => h2 j (by simpa using hj)⟩
  | i :: who, N, d, as, as', h1, h2, h3 => by
    have hs : (step d (as' i)).1 = (step d (as i)).1 ∧ (step d (as' i)).2 = (step d (as i)).2 := by
      by_cases hN : N i
      · obtain ⟨e1, e2⟩ := h1 i hN
        have := h3 i (by simp) hN
        rw [found, List.takeWhile_cons_of_neg (by simp)] at this
        rw [e1, e2, this]
        exact ⟨rfl, rfl⟩
      · rw [h2 i hN]; exact ⟨rfl, rfl⟩
    have ih := foreseen p q b v who (fun j => N j ∧ j ≠ i) (step d (as i)).1 (fun j => if j = i then (step d (as i)).2 else as j)
      (fun j => if j = i then (step d (as' i)).2 else as' j) (fun j hj => by simp only [if_neg hj.2]; exact h1 j hj.1)
      (fun j hj => by
        by_cases e : j = i
        · simp only [if_pos e, hs.2]
        · simp only [if_neg e]; exact h2 j fun h => hj ⟨h, e⟩)
      (fun j hj hN => by
        rw [h3 j (by simp [hj]) hN.1, found, List.takeWhile_cons_of_pos (by simpa using Ne.symm hN.2)]
        rfl)
    have e : (together (i :: who) (d, as')) = together who ((step d (as i)).1, fun j => if j = i then (step d (as' i)).2 else as' j) := by
      show together who ((step d (as' i)).1, _) = _
      rw [hs.1]
    rw [e]
    refine ⟨ih.1, fun j hj => ih.2 j ?_⟩
    by_cases e : j = i
    · exact .inr fun h => h.2 e
    · rcases hj with hj | hj
      · rcases List.mem_cons.1 hj with hj | hj
        · exact absurd hj e
        · exact .inl hj
      · exact .inr fun h => hj h.1

/-- (proof) -/
theorem found_prefix {who l r : List Nat} (h : who = l ++ r) (d : Disk) (as : Nat → Act) (p : Path) {j : Nat} (hj : j ∈ l) :
    found who d as p j = found l d as p j := by
  subst h
  unfold found
  rw [List.takeWhile_append]
  split
  · next hl =>
    have hj' : j ∈ l.takeWhile (· ≠ j) := by rw [(List.takeWhile_prefix _).eq_of_length hl]; exact hj
    have := List.mem_takeWhile_imp hj'
    simp at this
  · rfl

theorem together_still {who : List Nat} {j : Nat} (h : j ∉ who) : ∀ (d : Disk) (as : Nat → Act), (together who (d, as)).2 j = as j := by
  induction who with
  | nil => intro d as; rfl
  | cons i who ih =>
    intro d as
    simp only [List.mem_cons, not_or] at h
    show (together who _).2 j = _
    rw [ih h.2]
    simp [h.1]

theorem Follows.within_touched {d0 : Disk} {fix V W : Path → Prop} {a : Act} {l : List (Path × Text × Bool)} (h : Follows d0 fix a l) :
    (∀ p ∈ touched l, W p) → Within d0 fix V W a := by
  induction h with
  | ended e => intro _; exact .ended e
  | look hp _ ih => intro hl; exact .lookFix hp (ih hl)
  | @save p t b k l _ ih =>
    intro hl
    cases b
    · simp only [touched, Bool.false_eq_true, if_false, List.mem_cons, forall_eq_or_imp] at hl
      exact .trunc hl.1 (within_puts hl.1 (ih hl.2) _ _)
    · simp only [touched, if_true, List.mem_singleton, forall_eq] at hl
      exact .trunc hl (within_puts hl (.ended _) _ _)

theorem rest_tmpl (P : Prog D K S) {d d' : Disk} (h : ∀ p, Tmpl p → d p = d' p) (solver : Bool) (n : Text) (k : K) (e : D) :
    rest P d solver n k e = rest P d' solver n k e := by
  unfold rest
  rw [h _ (.inl rfl), h _ (.inr rfl)]

theorem follows_found (P : Prog D K S) (c : Cmd D) (d : Disk) (v : Option Text) :
    Follows d (Fixed d) (body P c v) (plan P (fun p => if p = pickleFile c.name then v else d p) c.solver c.name c.desc) := by
  have hf := follows_body P c (fun p => if p = pickleFile c.name then v else d p)
  rw [if_pos rfl] at hf
  exact hf.mono fun p hp => ⟨.inl hp, if_neg fun (e : p = pickleFile c.name) =>
    template_not_file hp c.solver c.name (by rw [e]; exact pickle_in_files _ _)⟩

/-! ## The theorem -/

/-- The same command started several times, with others that are apart from it, for a robot that has no pickle: when all with this command have ended, the
files are those of one run alone; some may have ended with an exception. Needed of pickles: what is dumped is loaded, and a pickle that is being written is
not. Needed of the robot: the forward kinematics adds no parameters (`C85_rerun_violation`). -/
theorem C86_first_runs_partial (P : Prog D K S) (hload : ∀ k, P.load (P.dump k) = some k)
    (htorn : ∀ k t, Torn t (P.dump k) → t ≠ P.dump k → P.load t = none) (d : Disk) (cs : Nat → Cmd D) (who : List Nat) (i : Nat) (hi : i ∈ who)
    (hpick : d (pickleFile (cs i).name) = none) (hg : P.grown (cs i).desc = (cs i).desc) (h : ∀ j ∈ who, cs j = cs i ∨ Apart d (cs j) (cs i))
    (hend : ∀ j ∈ who, cs j = cs i → ∃ e, (together who (d, fun j => start P (cs j))).2 j = .ended e) :
    ∀ p ∈ files (cs i).solver (cs i).name, (together who (d, fun j => start P (cs j))).1 p = after P d ⟨(cs i).solver, (cs i).name, (cs i).desc, none⟩ p := by
  classical
  intro p hp
  rw [after_eq]
  generalize hc : cs i = c at *
  let v : Nat → Option Text := found who d (fun j => start P (cs j)) (pickleFile c.name)
  let as' : Nat → Act := fun j => if cs j = c then .look preambleFile (fun _ => body P c (v j)) else start P (cs j)
  let pl : Option Text → List (Path × Text × Bool) := fun u => plan P (fun p => if p = pickleFile c.name then u else d p) c.solver c.name c.desc
  have hF : ∀ j, cs j = c → Follows d (Fixed d) (as' j) (pl (v j)) := fun j hj => by
    show Follows _ _ (if _ then _ else _) _
    rw [if_pos hj]
    exact .look (.inl (.inl rfl)) (follows_found P c d (v j))
  have hT : ∀ u, ∀ q ∈ touched (pl u), Writes d c q := fun u q hq =>
    plan_writes P d _ c (fun h => absurd hpick h) q (touched_sub _ _ hq)
  let W : Nat → Path → Prop := fun j => if cs j = c then (· ∈ touched (pl (v j))) else Writes d (cs j)
  have hWin : ∀ j, Within d (Fixed d) (W j) (W j) (as' j) := fun j => by
    by_cases hj : cs j = c
    · refine (hF j hj).within_touched fun q hq => ?_
      show (if _ then _ else _ : Path → Prop) q
      rw [if_pos hj]; exact hq
    · show Within _ _ (if _ then _ else _) (if _ then _ else _) (if _ then _ else _)
      rw [if_neg hj, if_neg hj]; exact within_start P d (cs j)
  have hfix : ∀ j q, W j q → ¬ Fixed d q := fun j q hq => by
    by_cases hj : cs j = c
    · rw [show W j = (· ∈ touched (pl (v j))) from if_pos hj] at hq
      exact (hT _ q hq).2
    · rw [show W j = Writes d (cs j) from if_neg hj] at hq
      exact hq.2
  -- the schedule and its beginnings, with the looks foreseen
  have hpre : ∀ l r, who = l ++ r → (together l (d, as')).1 = (together l (d, fun j => start P (cs j))).1 ∧
      ∀ j ∈ l, (together l (d, as')).2 j = (together l (d, fun j => start P (cs j))).2 j := fun l r hl => by
    have := foreseen (pickleFile c.name) preambleFile (fun _ => body P c) v l (fun j => cs j = c) d (fun j => start P (cs j)) as'
      (fun j hj => ⟨by show start P (cs j) = _; rw [hj, start_eq], if_pos hj⟩) (fun j hj => if_neg hj) (fun j hj _ => found_prefix hl d _ _ hj)
    exact ⟨this.1, fun j hj => this.2 j (.inl hj)⟩
  have hapart : ∀ {q}, Writes d c q → ∀ j ∈ who, cs j ≠ c → ¬ W j q := fun hq j hj hne => by
    rw [show W j = Writes d (cs j) from if_neg hne]
    exact apart_writes ((h j hj).resolve_left hne) hq
  have hwpk : Writes d c (pickleFile c.name) := ⟨pickle_in_files _ _, by
    rintro (ht | ⟨h, _⟩)
    · exact template_not_file ht c.solver c.name (pickle_in_files _ _)
    · exact h hpick⟩
  -- plans
  have hnone : pl none = (pickleFile c.name, P.dump (P.fk c.desc), false) :: rest P d c.solver c.name (P.fk c.desc) c.desc := by
    show plan _ _ _ _ _ = _
    unfold plan
    simp only [if_pos]
    rw [hg, rest_tmpl P (d' := d) fun q hq => if_neg fun e => template_not_file hq c.solver c.name (by rw [e]; exact pickle_in_files _ _)]
  have hsome : ∀ u, pl (some u) = match P.load u with
      | none => []
      | some k => rest P d c.solver c.name k c.desc := fun u => by
    show plan _ _ _ _ _ = _
    unfold plan
    simp only [if_pos]
    cases P.load u with
    | none => rfl
    | some k => exact rest_tmpl P (d' := d) (fun q hq => if_neg fun e => template_not_file hq c.solver c.name (by rw [e]; exact pickle_in_files _ _)) _ _ _ _
  have hpkrest : ∀ k, pickleFile c.name ∉ (rest P d c.solver c.name k c.desc).map (·.1) := fun k hm =>
    pickle_not_tail _ _ _ ((rest_sub P d c.solver c.name _ _).subset hm)
  have hnd : ((pl none).map (·.1)).Nodup := (plan_sub P _ c.solver c.name c.desc).nodup (files_nodup _ _)
  -- the pickle, at any time
  have hpk : ∀ l r, who = l ++ r → (together l (d, fun j => start P (cs j))).1 (pickleFile c.name) = none ∨
      ∃ f, (together l (d, fun j => start P (cs j))).1 (pickleFile c.name) = some f ∧ Torn f (P.dump (P.fk c.desc)) := fun l r hl => by
    have inv := together_same (d0 := d) (fix := Fixed d) (p := pickleFile c.name) (t := P.dump (P.fk c.desc)) (Q := fun j => cs j = c ∧ v j = none)
      (W := W) hfix hwpk.2 l d as' hWin (fun _ _ => rfl) (fun j hj => by
        by_cases hjc : cs j = c
        · rcases Option.eq_none_or_eq_some (v j) with hv | ⟨u, hv⟩
          · exact .inl ⟨hjc, hv⟩
          · right
            rw [show W j = (· ∈ touched (pl (v j))) from if_pos hjc, hv, hsome]
            intro hm
            split at hm
            · simp [touched] at hm
            · exact hpkrest _ (touched_sub _ _ hm)
        · exact .inr (hapart hwpk j (by rw [hl]; simp [hj]) hjc))
      (by
        have key : ∀ j, cs j = c ∧ v j = none → Later d (Fixed d) (pickleFile c.name) (P.dump (P.fk c.desc)) (as' j) := fun j hj => by
          have hf := hF j hj.1
          rw [hj.2] at hf
          obtain ⟨t, h1, h2⟩ := hf.later (p := pickleFile c.name) hnd (by rw [hnone]; simp [touched])
          have := h1 d
          rw [hnone, play_cons] at this
          simp only [Bool.false_eq_true, if_false] at this
          rw [play_off _ _ _ _ _ (hpkrest _), set_get] at this
          cases this
          exact h2
        exact ⟨fun j hj => .inl (key j hj), .inl ⟨rfl, key⟩⟩)
    rw [← (hpre l r hl).1]
    rcases inv.torn with h | h
    · exact .inl (h.trans hpick)
    · exact .inr h
  have hfound : ∀ j, v j = none ∨ ∃ f, v j = some f ∧ Torn f (P.dump (P.fk c.desc)) := fun j =>
    hpk _ (who.dropWhile (· ≠ j)) List.takeWhile_append_dropWhile.symm
  -- somebody finds none
  have hfirst : ∃ j ∈ who, cs j = c ∧ v j = none := by
    by_contra hall
    push Not at hall
    have hs : ∀ j ∈ who, cs j = c → pickleFile c.name ∉ touched (pl (v j)) := fun j hj hjc hm => by
      rcases Option.eq_none_or_eq_some (v j) with hv | ⟨u, hv⟩
      · exact hall j hj hjc hv
      · rw [hv, hsome] at hm
        split at hm
        · simp [touched] at hm
        · exact hpkrest _ (touched_sub _ _ hm)
    have hlen : ∀ l r, who = l ++ r → (together l (d, fun j => start P (cs j))).1 (pickleFile c.name) = none := fun l r hl => by
      rw [← (hpre l r hl).1, ← hpick]
      refine together_never (d0 := d) (fix := Fixed d) (W := W) hfix l d as' hWin (fun _ _ => rfl) fun j hj => .inr ?_
      have hjw : j ∈ who := by rw [hl]; simp [hj]
      by_cases hjc : cs j = c
      · rw [show W j = (· ∈ touched (pl (v j))) from if_pos hjc]; exact hs j hjw hjc
      · exact hapart hwpk j hjw hjc
    exact hall i hi hc (hlen _ _ List.takeWhile_append_dropWhile.symm)
  obtain ⟨j0, hj0, hc0, hv0⟩ := hfirst
  -- the others write the same, or nothing
  have hless : ∀ j q, q ∈ touched (pl (v j)) → q ∈ touched (pl none) ∧ ∀ x, play 0 (pl (v j)) none x q = play 0 (pl none) none x q := by
    intro j q hm
    rcases hfound j with hv | ⟨u, hv, hu⟩
    · rw [hv] at hm ⊢; exact ⟨hm, fun _ => rfl⟩
    · rw [hv, hsome] at hm ⊢
      by_cases hd : u = P.dump (P.fk c.desc)
      · rw [hd, hload] at hm ⊢
        have hq : q ≠ pickleFile c.name := fun e => hpkrest _ (by rw [← e]; exact touched_sub _ _ hm)
        rw [hnone]
        refine ⟨by simp [touched, hm], fun x => ?_⟩
        rw [play_cons]
        simp only [Bool.false_eq_true, if_false]
        exact play_congr _ _ _ _ _ _ (set_other _ _ hq).symm
      · rw [htorn _ u hu hd] at hm
        simp [touched] at hm
  have hplan : plan P d c.solver c.name c.desc = pl none := by
    show _ = plan _ _ _ _ _
    congr 1
    funext q
    by_cases e : q = pickleFile c.name
    · rw [if_pos e, e, hpick]
    · rw [if_neg e]
  rw [hplan, ← (hpre who [] (by simp)).1]
  by_cases ht : p ∈ touched (pl none)
  · obtain ⟨t, h1, h2⟩ := ((follows_found P c d none).later (p := p) hnd ht)
    have hw : Writes d c p := hT none p ht
    have inv := together_same (d0 := d) (fix := Fixed d) (p := p) (t := t) (Q := fun j => j ∈ who ∧ cs j = c ∧ p ∈ touched (pl (v j)))
      (W := W) hfix hw.2 who d as' hWin (fun _ _ => rfl) (fun j hj => by
        by_cases hjc : cs j = c
        · by_cases hm : p ∈ touched (pl (v j))
          · exact .inl ⟨hj, hjc, hm⟩
          · right; rw [show W j = (· ∈ touched (pl (v j))) from if_pos hjc]; exact hm
        · exact .inr (hapart hw j hj hjc))
      (by
        have key : ∀ j, j ∈ who ∧ cs j = c ∧ p ∈ touched (pl (v j)) → Later d (Fixed d) p t (as' j) := by
          rintro j ⟨hj, hjc, hm⟩
          have hf := hF j hjc
          have hsub : ((pl (v j)).map (·.1)).Nodup := (plan_sub P _ c.solver c.name c.desc).nodup (files_nodup _ _)
          obtain ⟨t', h1', h2'⟩ := hf.later (p := p) hsub hm
          suffices t' = t by rw [← this]; exact h2'
          have := h1' d
          rw [(hless j p hm).2, h1] at this
          exact (Option.some.inj this).symm
        exact ⟨fun j hj => .inl (key j hj), .inl ⟨rfl, key⟩⟩)
    rw [inv.final (i0 := j0) ⟨hj0, hc0, by rw [hv0]; exact ht⟩ fun j hj => by
      rw [(hpre who [] (by simp)).2 j hj.1]; exact hend j hj.1 hj.2.1]
    exact (h1 d).symm
  · rw [play_untouched _ _ _ _ _ ht]
    refine together_never (d0 := d) (fix := Fixed d) (W := W) hfix who d as' hWin (fun _ _ => rfl) fun j hj => .inr fun hw => ?_
    by_cases hjc : cs j = c
    · rw [show W j = (· ∈ touched (pl (v j))) from if_pos hjc] at hw
      exact ht (hless j p hw).1
    · exact hapart ⟨hp, hfix j p hw⟩ j hj hjc hw

/-- The conditions hold: the same command three times; the first two find no pickle, the third finds the one that they are writing, with a hole, and
ends with an exception. -/
example : (∀ k, tally.load (tally.dump k) = some k) ∧ (∀ k t, Torn t (tally.dump k) → t ≠ tally.dump k → tally.load t = none) ∧
    (let cs : Nat → Cmd Nat := fun _ => ⟨true, "Puma".toList, 2⟩
    let who := steps 1 0 ++ steps 1 1 ++ steps 3 0 ++ steps 1 1 ++ steps 1 0 ++ steps 1 2 ++ steps 20 0 ++ steps 20 1
    [0, 1, 2].map (fun i => isEnd ((together who (emptyDisk, fun j => start tally (cs j))).2 i)) = [some none, some none, some (some .raised)] ∧
    tally.grown 2 = 2 ∧
    (files true "Puma".toList).map (together who (emptyDisk, fun j => start tally (cs j))).1 =
      [some "xx.".toList, some "<yy>".toList, some "zz".toList, some "ww".toList]) := by
  refine ⟨fun k => by simp [tally], fun k t ht hne => ?_, ?_, rfl, ?_⟩
  · show (if _ then _ else _) = none
    rw [if_neg fun e => ?_]
    have hl := congrArg List.length e
    simp only [List.length_append, List.length_replicate, List.length_singleton] at hl
    have h1 := ht.1
    simp only [tally, List.length_append, List.length_replicate, List.length_singleton] at h1
    rcases Nat.lt_or_ge t.length (k + 1) with h | h
    · have hx : t[t.length - 1]? = some '.' := by
        rw [e]
        simp
      rcases ht.2 _ _ hx with h2 | h2
      · simp only [tally] at h2
        rw [List.getElem?_append_left (by simp; omega), List.getElem?_replicate] at h2
        split at h2 <;> simp at h2
      · exact absurd h2 (by decide)
    · refine hne (e.trans ?_)
      have : t.length - 1 = k := by omega
      rw [this]
      rfl
  all_goals decide +kernel

end Verif.Main.Disk
