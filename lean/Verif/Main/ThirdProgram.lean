import Verif.Main.ParallelFirst

/-!
# The third program that uses the pickles: forward_kin2.py

It makes or reads the pickle of a robot, checks it, and ends (forward_kin2.py:69-99). Its runs, killed or not, alone or beside others, leave the disk like runs of
`fkOnly.py` that are killed after the pickle. So C85 and C86 hold for histories of all three programs.
-/
namespace Verif.Main.Disk
open Verif.Out

variable {D K S : Type}

/-! ## The model -/

/-- forward_kin2.py:84-99 (the robot's name is the argument of the command, 69-78) -/
def forwardKin2 (P : Prog D K S) (n : Text) (d : D) (s : Proc) : R Unit := (kinematics P n d s).andThen fun _ s => (s, .ok ())

/-- a run of one of the three programs -/
inductive Use (D : Type) where
  | main (r : Run D)
  /-- forward_kin2.py for a robot and its description, with the kill as in `Run` -/
  | kin2 (name : Text) (desc : D) (kill : Option (Nat × Nat))

/-- the robot -/
def Use.name : Use D → Text
  | .main r => r.name
  | .kin2 n _ _ => n

/-- The disk after a run of one of the three programs. -/
def afterUse (P : Prog D K S) (d : Disk) : Use D → Disk
  | .main r => after P d r
  | .kin2 n e kill => fin ((kill.map (·.2)).getD 0) (forwardKin2 P n e ⟨d, none, kill.map (·.1)⟩)

/-- a history of runs of the three programs -/
def afterUses (P : Prog D K S) (d : Disk) (us : List (Use D)) : Disk := us.foldl (afterUse P) d

/-- forward_kin2.py as a process (see `Main/Parallel`) -/
def forwardKin2A (P : Prog D K S) (n : Text) (d : D) : Act := kinematicsA P n d fun _ _ => .ended none

/-! ## Runs one after the other -/

/-- (proof) -/
theorem afterUse_kin2 (P : Prog D K S) (d : Disk) (n : Text) (e : D) (kill : Option (Nat × Nat)) :
    afterUse P d (.kin2 n e kill) = play ((kill.map (·.2)).getD 0)
      (match d (pickleFile n) with | none => [(pickleFile n, P.dump (P.fk e), false)] | some _ => []) (kill.map (·.1)) d := by
  show fin _ (forwardKin2 P n e _) = _
  generalize (kill.map (·.2)).getD 0 = lost
  generalize kill.map (·.1) = left
  unfold forwardKin2 kinematics stored
  have hlast : ∀ (k : K) (x : D) (d' : Disk) (l : Option Nat),
      fin lost (((if P.same k x then (⟨d', none, l⟩, .ok (k, x)) else (⟨d', none, l⟩, .error .quit) : R (K × D))).andThen fun _ s => (s, .ok ())) = d' :=
    fun k x d' l => by split <;> rfl
  cases hp : d (pickleFile n) with
  | some t =>
    simp only [hp]
    cases hl : P.load t with
    | none => rfl
    | some k => exact hlast k e d left
  | none =>
    simp only [hp]
    rw [andThen_assoc, andThen_assoc]
    refine fin_save_play lost _ _ d left _ _ fun d' l' _ => ?_
    exact hlast _ _ d' l'

/-- A run of forward_kin2.py leaves the disk as it is if the robot has a pickle; otherwise it writes the pickle that the other programs write. If it is killed,
the pickle is missing, or the beginning of it is there. -/
theorem C85_forward_kin2 (P : Prog D K S) (d : Disk) (n : Text) (e : D) (kill : Option (Nat × Nat)) :
    (d (pickleFile n) ≠ none → afterUse P d (.kin2 n e kill) = d) ∧
    (d (pickleFile n) = none → afterUse P d (.kin2 n e none) = d.set (pickleFile n) (P.dump (P.fk e)) ∧
      (afterUse P d (.kin2 n e kill) = d ∨ ∃ t, t <+: P.dump (P.fk e) ∧ afterUse P d (.kin2 n e kill) = d.set (pickleFile n) t)) := by
  refine ⟨fun h => ?_, fun h => ⟨?_, ?_⟩⟩
  · obtain ⟨t, ht⟩ := Option.ne_none_iff_exists'.1 h
    rw [afterUse_kin2, ht]
    rfl
  · rw [afterUse_kin2, h]
    rfl
  · rw [afterUse_kin2, h]
    dsimp only
    rw [play_cons]
    generalize kill.map (·.1) = left
    match left with
    | none => exact .inr ⟨_, List.prefix_refl _, rfl⟩
    | some 0 => exact .inl rfl
    | some 1 => exact .inr ⟨[], List.nil_prefix, rfl⟩
    | some 2 => exact .inr ⟨_, List.take_prefix _ _, rfl⟩
    | some (k + 3) => exact .inr ⟨_, List.prefix_refl _, rfl⟩

/-- (proof) -/
theorem kin2_as_fkOnly (P : Prog D K S) (d : Disk) (n : Text) (e : D) (kill : Option (Nat × Nat)) :
    ∃ kill', afterUse P d (.kin2 n e kill) = after P d ⟨false, n, e, some kill'⟩ := by
  rw [afterUse_kin2]
  cases hp : d (pickleFile n) with
  | some t =>
    refine ⟨(0, 0), ?_⟩
    rw [after_eq]
    show d = play 0 _ (some 0) d
    generalize plan P d _ _ _ = l
    rcases l with _ | ⟨⟨q, t, b⟩, l⟩ <;> rfl
  | none =>
    have hr : ∀ x lost, play lost (rest P d false n (P.fk e) (P.grown e)) (some 0) x = x := fun x lost => by
      generalize rest P d _ _ _ _ = l
      rcases l with _ | ⟨⟨q, t, b⟩, l⟩ <;> rfl
    have hplan : plan P d false n e = (pickleFile n, P.dump (P.fk e), false) :: rest P d false n (P.fk e) (P.grown e) := by
      unfold plan; simp only [hp]
    match kill with
    | none => exact ⟨(3, 0), by rw [after_eq, hplan]; exact (hr _ _).symm⟩
    | some (0, m) => exact ⟨(0, m), by rw [after_eq, hplan]; rfl⟩
    | some (1, m) => exact ⟨(1, m), by rw [after_eq, hplan]; rfl⟩
    | some (2, m) => exact ⟨(2, m), by rw [after_eq, hplan]; rfl⟩
    | some (k + 3, m) => exact ⟨(3, 0), by rw [after_eq, hplan]; exact (hr _ _).symm⟩

/-- Every history of runs of the three programs leaves the disk like a history of runs of ikSolver.py and fkOnly.py, for the same robots with the same
descriptions, in which the runs of forward_kin2.py are runs of fkOnly.py that are killed. -/
theorem C85_three_programs (P : Prog D K S) (d : Disk) (us : List (Use D)) : ∃ rs, afterUses P d us = afterAll P d rs ∧
    List.Forall₂ (fun u r => match u with | .main r' => r = r' | .kin2 n e _ => ∃ kill, r = ⟨false, n, e, some kill⟩) us rs := by
  induction us generalizing d with
  | nil => exact ⟨[], rfl, .nil⟩
  | cons u us ih =>
    cases u with
    | main r =>
      obtain ⟨rs, h1, h2⟩ := ih (after P d r)
      exact ⟨r :: rs, h1, .cons rfl h2⟩
    | kin2 n e kill =>
      obtain ⟨k, hk⟩ := kin2_as_fkOnly P d n e kill
      obtain ⟨rs, h1, h2⟩ := ih (afterUse P d (.kin2 n e kill))
      refine ⟨⟨false, n, e, some k⟩ :: rs, ?_, .cons ⟨k, rfl⟩ h2⟩
      show afterUses P (afterUse P d _) us = afterAll P (after P d _) rs
      rw [h1, hk]

/-- For instance: other robots' runs of any of the three programs leave a robot's files alone (as `C85_other_robots_partial`), and a pickle that cannot be
loaded stops all three for ever (as `C85_damaged_pickle`). -/
theorem C85_three_programs_robots (P : Prog D K S) (d : Disk) (us : List (Use D)) (n : Text) :
    ((∀ u ∈ us, u.name ≠ n ∧ dropTest u.name ≠ dropTest n) → ∀ s, ∀ p ∈ files s n, afterUses P d us p = d p) ∧
    (∀ t, d (pickleFile n) = some t → P.load t = none → (∀ u ∈ us, u.name = n) → afterUses P d us = d) := by
  obtain ⟨rs, h1, h2⟩ := C85_three_programs P d us
  have hname : ∀ r ∈ rs, ∃ u ∈ us, u.name = r.name := by
    clear h1
    induction h2 with
    | nil => intro r hr; cases hr
    | @cons u r us rs hu _ ih =>
      intro r' hr
      rcases List.mem_cons.1 hr with rfl | hr
      · refine ⟨u, by simp, ?_⟩
        cases u with
        | main r => rw [show r' = r from hu]; rfl
        | kin2 n e k => obtain ⟨kill, rfl⟩ := hu; rfl
      · obtain ⟨u', hu', e⟩ := ih r' hr
        exact ⟨u', by simp [hu'], e⟩
  rw [h1]
  refine ⟨fun h s p hp => ?_, fun t ht hl h => C85_damaged_pickle P d n t ht hl rs fun r hr => ?_⟩
  · rw [C85_other_robots_partial P d rs n (fun r hr _ => by obtain ⟨u, hu, e⟩ := hname r hr; rw [← e]; exact (h u hu).2) s p hp]
    have : rs.filter (fun r => r.name = n) = [] := List.filter_eq_nil_iff.2 fun r hr => by
      obtain ⟨u, hu, e⟩ := hname r hr
      simpa [← e] using (h u hu).1
    rw [this]
    rfl
  · obtain ⟨u, hu, e⟩ := hname r hr
    rw [← e]; exact h u hu

/-! ## At the same time -/

/-- (proof) `a` does what `b` does, and ends earlier. -/
inductive Cut : Act → Act → Prop
  | ended (e b) : Cut (.ended e) b
  | look {p k k'} : (∀ v, Cut (k v) (k' v)) → Cut (.look p k) (.look p k')
  | trunc {p k k'} : Cut k k' → Cut (.trunc p k) (.trunc p k')
  | put {p i c k k'} : Cut k k' → Cut (.put p i c k) (.put p i c k')

theorem cut_puts (p : Path) {k k' : Act} (h : Cut k k') : ∀ (t : Text) (i : Nat), Cut (puts p i t k) (puts p i t k')
  | [], _ => h
  | _ :: t, i => .put (cut_puts p h t (i + 1))

theorem cut_kin2 (P : Prog D K S) (n : Text) (e : D) : Cut (forwardKin2A P n e) (start P ⟨false, n, e⟩) := by
  have hend : ∀ (x : K) (e' : D) (b : Act), Cut (if P.same x e' then .ended none else .ended (some .quit)) b := fun x e' b => by
    split <;> exact .ended _ _
  refine .look fun v => ?_
  cases v with
  | none => exact .trunc (cut_puts _ (hend _ _ _) _ _)
  | some t =>
    dsimp only
    cases P.load t with
    | none => exact .ended _ _
    | some k => exact hend _ _ _

/-- (proof) -/
theorem together_cut (only : Nat → Bool) : ∀ (who : List Nat) (d : Disk) (as bs : Nat → Act),
    (∀ j, only j = true → Cut (as j) (bs j)) → (∀ j, only j = false → as j = bs j) →
    ∃ who', (together who (d, as)).1 = (together who' (d, bs)).1 ∧ who'.Sublist who ∧
      ∀ j, only j = false → (together who (d, as)).2 j = (together who' (d, bs)).2 j ∧ who'.count j = who.count j
  | [], d, as, bs, _, h2 => ⟨[], rfl, .slnil, fun j hj => ⟨h2 j hj, rfl⟩⟩
  | i :: who, d, as, bs, h1, h2 => by
    -- both take the step, or only the process that has ended
    have hboth : (step d (as i)).1 = (step d (bs i)).1 → (only i = true → Cut (step d (as i)).2 (step d (bs i)).2) →
        (only i = false → (step d (as i)).2 = (step d (bs i)).2) →
        ∃ who', (together (i :: who) (d, as)).1 = (together who' (d, bs)).1 ∧ who'.Sublist (i :: who) ∧
          ∀ j, only j = false → (together (i :: who) (d, as)).2 j = (together who' (d, bs)).2 j ∧ who'.count j = (i :: who).count j := by
      intro e1 e2 e3
      obtain ⟨who', g1, g2, g3⟩ := together_cut only who (step d (as i)).1 (fun j => if j = i then (step d (as i)).2 else as j)
        (fun j => if j = i then (step d (bs i)).2 else bs j)
        (fun j hj => by
          by_cases e : j = i
          · simp only [if_pos e]; exact e2 (e ▸ hj)
          · simp only [if_neg e]; exact h1 j hj)
        (fun j hj => by
          by_cases e : j = i
          · simp only [if_pos e]; exact e3 (e ▸ hj)
          · simp only [if_neg e]; exact h2 j hj)
      rw [e1] at g1 g3
      refine ⟨i :: who', ?_, g2.cons_cons i, fun j hj => ⟨?_, ?_⟩⟩
      · show (together who ((step d (as i)).1, _)).1 = _
        rw [e1]; exact g1
      · show (together who ((step d (as i)).1, _)).2 j = _
        rw [e1]; exact (g3 j hj).1
      · rw [List.count_cons, List.count_cons, (g3 j hj).2]
    by_cases ho : only i = true
    · have hc := h1 i ho
      generalize hai : as i = a at hc hboth
      generalize hbi : bs i = b at hc hboth
      cases hc with
      | ended e =>
        obtain ⟨who', g1, g2, g3⟩ := together_cut only who d as bs h1 h2
        have hs : together (i :: who) (d, as) = together who (d, as) := by
          show together who ((step d (as i)).1, _) = _
          rw [hai]
          congr 2
          funext j
          by_cases e' : j = i
          · simp only [if_pos e']; rw [e', hai]; rfl
          · simp only [if_neg e']
        rw [hs]
        refine ⟨who', g1, g2.cons i, fun j hj => ⟨(g3 j hj).1, ?_⟩⟩
        rw [List.count_cons, (g3 j hj).2, if_neg, Nat.add_zero]
        intro h
        rw [show i = j by simpa using h, hj] at ho
        cases ho
      | look h => exact hboth rfl (fun _ => h _) fun h => by rw [h] at ho; cases ho
      | trunc h => exact hboth rfl (fun _ => h) fun h => by rw [h] at ho; cases ho
      | put h => exact hboth rfl (fun _ => h) fun h => by rw [h] at ho; cases ho
    · have e := h2 i (by simpa using ho)
      exact hboth (by rw [e]) (fun h => absurd h ho) fun _ => by rw [e]

/-- Any number of processes of the three programs, their steps in any order: the disk is like after some of the steps, in this order, of processes where
`fkOnly.py` stands for `forward_kin2.py`; the other processes make all their steps, and are where they are there. So `C86_apart` and `C86_unwritten` hold for
all three programs. -/
theorem C86_three_programs (P : Prog D K S) (d : Disk) (cs : Nat → Cmd D) (only : Nat → Bool) (hk : ∀ j, only j = true → (cs j).solver = false)
    (who : List Nat) :
    ∃ who', (together who (d, fun j => if only j then forwardKin2A P (cs j).name (cs j).desc else start P (cs j))).1 =
        (together who' (d, fun j => start P (cs j))).1 ∧ who'.Sublist who ∧
      ∀ j, only j = false → (together who (d, fun j => if only j then forwardKin2A P (cs j).name (cs j).desc else start P (cs j))).2 j =
        (together who' (d, fun j => start P (cs j))).2 j ∧ who'.count j = who.count j := by
  refine together_cut only who d _ _ (fun j hj => ?_) fun j hj => by simp [hj]
  simp only [hj, if_true]
  have := cut_kin2 P (cs j).name (cs j).desc
  have e : cs j = ⟨false, (cs j).name, (cs j).desc⟩ := by
    have := hk j hj
    cases h : cs j
    rw [h] at this
    dsimp only at this
    rw [this]
  rw [e]
  exact this

/-- One process of forward_kin2.py alone passes exactly the disks that its runs leave, killed at any point with any loss; and it ends. -/
theorem C86_forward_kin2_alone (P : Prog D K S) (d : Disk) (n : Text) (e : D) :
    (∀ x, (∃ m, (alone m (d, forwardKin2A P n e)).1 = x) ↔ ∃ kill, afterUse P d (.kin2 n e kill) = x) ∧
    ∃ m o, ∀ m', m ≤ m' → alone m' (d, forwardKin2A P n e) = (afterUse P d (.kin2 n e none), .ended o) := by
  have hs : Same d (forwardKin2A P n e) (match d (pickleFile n) with | none => [(pickleFile n, P.dump (P.fk e), false)] | some _ => []) := by
    have hend : ∀ (x : K) (e' : D) (d : Disk), Same d (if P.same x e' then .ended none else .ended (some .quit)) [] := fun x e' d => by
      split <;> exact same_ended _ _
    refine same_look ?_
    cases hp : d (pickleFile n) with
    | none => exact same_save fun _ => hend _ _ _
    | some t =>
      dsimp only
      cases P.load t with
      | none => exact same_ended _ _
      | some k => exact hend _ _ _
  obtain ⟨h1, m, o, h2⟩ := hs
  refine ⟨fun x => ⟨fun hx => ?_, ?_⟩, m, o, fun m' hm => ?_⟩
  · obtain ⟨k, lost, rfl⟩ := (h1 x).1 hx
    cases k with
    | none => exact ⟨none, by rw [afterUse_kin2]; exact play_none _ _ _ _⟩
    | some k => exact ⟨some (k, lost), by rw [afterUse_kin2]; rfl⟩
  · rintro ⟨kill, rfl⟩
    exact (h1 _).2 ⟨kill.map (·.1), (kill.map (·.2)).getD 0, by rw [afterUse_kin2]⟩
  · obtain ⟨r, rfl⟩ : ∃ r, m' = m + r := ⟨m' - m, by omega⟩
    rw [alone_add, h2, alone_ended, afterUse_kin2]
    rfl

/-! ## Concrete cases -/

/-- forward_kin2.py, killed while it writes the pickle, for one robot; then complete for another, whose programs are then made from its pickle. -/
example : let us : List (Use Nat) := [.kin2 "Puma".toList 2 (some (2, 1)), .kin2 "Wrist".toList 1 none, .main ⟨true, "Wrist".toList, 1, none⟩]
    afterUses tally emptyDisk us (pickleFile "Puma".toList) = some "xx".toList ∧
    (files true "Wrist".toList).map (afterUses tally emptyDisk us) = [some "x.".toList, some "<y>".toList, some "z".toList, some "w".toList] := by
  decide +kernel

/-- forward_kin2.py beside ikSolver.py for another robot. -/
example : let as : Nat → Act := fun j => if j = 0 then forwardKin2A tally "Wrist".toList 1 else start tally ⟨true, "Puma".toList, 2⟩
    let who := [0, 1, 0, 1, 0, 1, 0] ++ steps 20 1 ++ [0]
    isEnd ((together who (emptyDisk, as)).2 0) = some none ∧ isEnd ((together who (emptyDisk, as)).2 1) = some none ∧
    (together who (emptyDisk, as)).1 (pickleFile "Wrist".toList) = some "x.".toList ∧
    (files true "Puma".toList).map (together who (emptyDisk, as)).1 =
      [some "xx.".toList, some "<yy>".toList, some "zz".toList, some "ww".toList] := by
  decide +kernel

end Verif.Main.Disk
