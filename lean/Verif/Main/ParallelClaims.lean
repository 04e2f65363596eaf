import Verif.Main.ParallelSame

/-!
# C86: the theorems
-/
namespace Verif.Main.Disk
open Verif.Out

variable {D K S : Type}

/-- Two commands that do not touch each other's files: for different robots, or the two programs for a robot that has a pickle. (specification) -/
def Apart (d : Disk) (c c' : Cmd D) : Prop :=
  (c.name ≠ c'.name ∧ dropTest c.name ≠ dropTest c'.name) ∨ (c.name = c'.name ∧ c.solver ≠ c'.solver ∧ d (pickleFile c.name) ≠ none)

/-- (proof) the files that nobody writes: templates and pickles that exist -/
def Fixed (d : Disk) (p : Path) : Prop := Tmpl p ∨ (d p ≠ none ∧ ∃ n, p = pickleFile n)

/-- (proof) the files that a command may write -/
def Writes (d : Disk) (c : Cmd D) (p : Path) : Prop := p ∈ files c.solver c.name ∧ ¬ Fixed d p

theorem pickle_in_files (s : Bool) (n : Text) : pickleFile n ∈ files s n := by cases s <;> simp [files]

theorem pickle_not_tail (s : Bool) (n m : Text) : pickleFile m ∉ (files s n).tail := by
  cases s
  · simp [files, pickle_ne_fkPy, pickle_ne_fkTex]
  · simp [files, pickle_ne_ikTex, pickle_ne_ikPy, pickle_ne_cpp]

theorem pickle_of_files {s : Bool} {n m : Text} (h : pickleFile m ∈ files s n) : m = n := by
  have hf : files s n = pickleFile n :: (files s n).tail := by unfold files; cases s <;> rfl
  rw [hf, List.mem_cons] at h
  rcases h with h | h
  · exact append_cancel_mid h
  · exact absurd h (pickle_not_tail s n m)

theorem plan_writes (P : Prog D K S) (d d' : Disk) (c : Cmd D) (h : d (pickleFile c.name) ≠ none → d' (pickleFile c.name) = d (pickleFile c.name)) :
    ∀ p ∈ (plan P d' c.solver c.name c.desc).map (·.1), Writes d c p := by
  intro p hp
  refine ⟨(plan_sub P d' c.solver c.name c.desc).subset hp, ?_⟩
  rintro (ht | ⟨hd, n, rfl⟩)
  · exact plan_not_tmpl P d' c p hp ht
  · have hn : n = c.name := pickle_of_files ((plan_sub P d' c.solver c.name c.desc).subset hp)
    subst hn
    have h' := h hd
    cases hv : d (pickleFile c.name) with
    | none => exact hd hv
    | some t =>
      rw [hv] at h'
      unfold plan at hp
      simp only [h'] at hp
      split at hp
      · simp at hp
      · exact pickle_not_tail _ _ _ ((rest_sub P d' c.solver c.name _ _).subset hp)

theorem within_start (P : Prog D K S) (d : Disk) (c : Cmd D) : Within d (Fixed d) (Writes d c) (Writes d c) (start P c) := by
  rw [start_eq]
  by_cases h : d (pickleFile c.name) = none
  · refine .lookOwn ⟨pickle_in_files _ _, ?_⟩ fun v => ?_
    · rintro (ht | ⟨hd, _⟩)
      · exact template_not_file ht c.solver c.name (pickle_in_files _ _)
      · exact hd h
    · let d' : Disk := fun p => if p = pickleFile c.name then v else d p
      have hf := follows_body P c d'
      have hv : d' (pickleFile c.name) = v := if_pos rfl
      rw [hv] at hf
      have hm : ∀ p, Tmpl p → Fixed d p ∧ d' p = d p := fun p hp =>
        ⟨.inl hp, if_neg fun (e : p = pickleFile c.name) => template_not_file hp c.solver c.name (by rw [e]; exact pickle_in_files _ _)⟩
      exact (hf.mono hm).within (plan_writes P d d' c fun h' => absurd h h')
  · refine .lookFix (.inr ⟨h, _, rfl⟩) ?_
    exact ((follows_body P c d).mono fun p hp => ⟨.inl hp, rfl⟩).within (plan_writes P d d c fun _ => rfl)

theorem apart_writes {d : Disk} {c c' : Cmd D} (h : Apart d c c') {p : Path} (hp : Writes d c' p) : ¬ Writes d c p := by
  rintro ⟨h1, h2⟩
  rcases h with ⟨h3, h4⟩ | ⟨h3, h4, h5⟩
  · exact file_of_other h3.symm h4.symm h1 hp.1
  · obtain ⟨s, n, e⟩ := c
    obtain ⟨s', n', e'⟩ := c'
    dsimp only at *
    subst h3
    have : p = pickleFile n := by
      cases s <;> cases s'
      · exact absurd rfl h4
      · exact ((C85_file_names n n).2.2 p hp.1 h1).1
      · exact ((C85_file_names n n).2.2 p h1 hp.1).1
      · exact absurd rfl h4
    exact h2 (.inr ⟨by rw [this]; exact h5, n, this⟩)

/-! ## The theorems -/

/-- One process alone: the disks it passes are exactly those that the runs of C85 leave, killed at any point with any loss; and it ends, with the disk of
the run that is not killed. -/
theorem C86_alone (P : Prog D K S) (d : Disk) (c : Cmd D) :
    (∀ x, (∃ m, (alone m (d, start P c)).1 = x) ↔ ∃ kill, after P d ⟨c.solver, c.name, c.desc, kill⟩ = x) ∧
    ∃ m e, ∀ m', m ≤ m' → alone m' (d, start P c) = (after P d ⟨c.solver, c.name, c.desc, none⟩, .ended e) := by
  obtain ⟨h1, m, e, h2⟩ := same_start P c d
  refine ⟨fun x => ⟨fun hx => ?_, ?_⟩, m, e, fun m' hm => ?_⟩
  · obtain ⟨k, lost, rfl⟩ := (h1 x).1 hx
    cases k with
    | none => exact ⟨none, by rw [after_eq]; exact play_none _ _ _ _⟩
    | some k => exact ⟨some (k, lost), by rw [after_eq]; rfl⟩
  · rintro ⟨kill, rfl⟩
    exact (h1 _).2 ⟨kill.map (·.1), (kill.map (·.2)).getD 0, by rw [after_eq]⟩
  · obtain ⟨r, rfl⟩ : ∃ r, m' = m + r := ⟨m' - m, by omega⟩
    rw [alone_add, h2, alone_ended, after_eq]
    rfl

/-- Any number of commands at the same time, their steps in any order: a process whose command is apart from the others is, at every moment, where it would
be alone after as many steps, and so are its files. -/
theorem C86_apart (P : Prog D K S) (d : Disk) (cs : Nat → Cmd D) (who : List Nat) (i : Nat) (h : ∀ j ∈ who, j ≠ i → Apart d (cs j) (cs i)) :
    (together who (d, fun j => start P (cs j))).2 i = (alone (who.count i) (d, start P (cs i))).2 ∧
    ∀ p ∈ files (cs i).solver (cs i).name,
      (together who (d, fun j => start P (cs j))).1 p = (alone (who.count i) (d, start P (cs i))).1 p := by
  obtain ⟨h1, h2, h3⟩ := together_alone (d0 := d) (fix := Fixed d) (V := fun j => Writes d (cs j)) (W := fun j => Writes d (cs j)) i (fun j p hp => hp.2)
    who d d (fun j => start P (cs j)) (fun j => within_start P d (cs j)) (fun j hj hne p hp => apart_writes (h j hj hne) hp)
    (fun _ _ => rfl) (fun _ _ => rfl) (fun _ _ => rfl)
  refine ⟨h1, fun p hp => ?_⟩
  by_cases hf : Fixed d p
  · rw [(h3 p hf).1, (h3 p hf).2]
  · exact h2 p ⟨hp, hf⟩

/-- The same command started several times, with others that are apart from it, for a robot that has a pickle: when all with this command have ended, the files
are those of one run alone — though the processes truncate and write the same files at the same time. -/
theorem C86_same_command_partial (P : Prog D K S) (d : Disk) (cs : Nat → Cmd D) (who : List Nat) (i : Nat) (hi : i ∈ who)
    (hpick : d (pickleFile (cs i).name) ≠ none) (h : ∀ j ∈ who, cs j = cs i ∨ Apart d (cs j) (cs i))
    (hend : ∀ j ∈ who, cs j = cs i → ∃ e, (together who (d, fun j => start P (cs j))).2 j = .ended e) :
    ∀ p ∈ files (cs i).solver (cs i).name, (together who (d, fun j => start P (cs j))).1 p = after P d ⟨(cs i).solver, (cs i).name, (cs i).desc, none⟩ p := by
  intro p hp
  have hF : Follows d (Fixed d) (start P (cs i)) (plan P d (cs i).solver (cs i).name (cs i).desc) := by
    rw [start_eq]
    exact .look (.inr ⟨hpick, _, rfl⟩) ((follows_body P (cs i) d).mono fun p hp => ⟨.inl hp, rfl⟩)
  have hnd := (plan_sub P d (cs i).solver (cs i).name (cs i).desc).nodup (files_nodup _ _)
  rw [after_eq]
  by_cases ht : p ∈ touched (plan P d (cs i).solver (cs i).name (cs i).desc)
  · obtain ⟨t, h1, h2⟩ := hF.later hnd ht
    have hw : Writes d (cs i) p := plan_writes P d d (cs i) (fun _ => rfl) p (touched_sub _ _ ht)
    have inv := together_same (d0 := d) (fix := Fixed d) (p := p) (t := t) (Q := fun j => j ∈ who ∧ cs j = cs i) (W := fun j => Writes d (cs j))
      (fun j q hq => hq.2) hw.2 who d (fun j => start P (cs j)) (fun j => within_start P d (cs j)) (fun _ _ => rfl)
      (fun j hj => (h j hj).imp (fun e => ⟨hj, e⟩) fun ha => apart_writes ha hw)
      ⟨fun j hj => .inl (by dsimp only; rw [hj.2]; exact h2), .inl ⟨rfl, fun j hj => by dsimp only; rw [hj.2]; exact h2⟩⟩
    rw [inv.final (i0 := i) ⟨hi, rfl⟩ fun j hj => hend j hj.1 hj.2]
    exact (h1 d).symm
  · have := together_never (d0 := d) (fix := Fixed d) (p := p) (W := fun j => Writes d (cs j)) (fun j q hq => hq.2) who d (fun j => start P (cs j))
      (fun j => within_start P d (cs j)) (fun _ _ => rfl) fun j hj => by
        rcases h j hj with e | ha
        · left; rw [e]; exact hF.never ht
        · by_cases hf : Fixed d p
          · exact .inr fun hw => hw.2 hf
          · exact .inr (apart_writes ha ⟨hp, hf⟩)
    rw [this]
    exact (play_untouched _ _ _ _ _ ht).symm

/-- The templates are never written, and neither are pickles that exist. -/
theorem C86_unwritten (P : Prog D K S) (d : Disk) (cs : Nat → Cmd D) (who : List Nat) (p : Path)
    (hp : p = preambleFile ∨ p = closeFile ∨ ∃ n, p = pickleFile n ∧ d p ≠ none) :
    (together who (d, fun j => start P (cs j))).1 p = d p := by
  have hf : Fixed d p := by
    rcases hp with h | h | ⟨n, h1, h2⟩
    · exact .inl (.inl h)
    · exact .inl (.inr h)
    · exact .inr ⟨h2, n, h1⟩
  exact together_never (d0 := d) (fix := Fixed d) (W := fun j => Writes d (cs j)) (fun j q hq => hq.2) who d (fun j => start P (cs j))
    (fun j => within_start P d (cs j)) (fun _ _ => rfl) fun j _ => .inr fun hw => hw.2 hf

/-- If every robot has its pickle, the commands for a robot and program agree, and different robots' names differ also without `test: `: when all have ended, all
files of all commands are as after each command alone. -/
theorem C86_all_partial (P : Prog D K S) (d : Disk) (cs : Nat → Cmd D) (who : List Nat) (hpick : ∀ i ∈ who, d (pickleFile (cs i).name) ≠ none)
    (hname : ∀ i ∈ who, ∀ j ∈ who, dropTest (cs i).name = dropTest (cs j).name → (cs i).name = (cs j).name)
    (hcmd : ∀ i ∈ who, ∀ j ∈ who, (cs i).name = (cs j).name → (cs i).solver = (cs j).solver → (cs i).desc = (cs j).desc)
    (hend : ∀ j ∈ who, ∃ e, (together who (d, fun j => start P (cs j))).2 j = .ended e) :
    ∀ i ∈ who, ∀ p ∈ files (cs i).solver (cs i).name,
      (together who (d, fun j => start P (cs j))).1 p = after P d ⟨(cs i).solver, (cs i).name, (cs i).desc, none⟩ p := by
  intro i hi
  refine C86_same_command_partial P d cs who i hi (hpick i hi) (fun j hj => ?_) fun j hj _ => hend j hj
  by_cases hn : (cs j).name = (cs i).name
  · by_cases hs : (cs j).solver = (cs i).solver
    · left
      have := hcmd j hj i hi hn hs
      cases hj' : cs j
      cases hi' : cs i
      rw [hj', hi'] at hn hs this
      dsimp only at *
      subst hn hs this
      rfl
    · exact .inr (.inr ⟨hn, hs, hpick j hj⟩)
  · exact .inr (.inl ⟨hn, fun e => hn (hname j hj i hi e)⟩)

/-! ## Concrete cases and violations -/

/-- the ends of the processes -/
def isEnd : Act → Option (Option Stop)
  | .ended e => some e
  | _ => none

/-- `n` steps of process `i` -/
def steps (n i : Nat) : List Nat := List.replicate n i

/-- Two robots at the same time; nothing exists but the templates. -/
example : let cs : Nat → Cmd Nat := fun j => if j = 0 then ⟨true, "Puma".toList, 2⟩ else ⟨false, "Wrist".toList, 1⟩
    let who := steps 3 0 ++ steps 4 1 ++ steps 9 0 ++ steps 20 1 ++ steps 20 0
    (∀ j ∈ who, j ≠ 0 → Apart emptyDisk (cs j) (cs 0)) ∧
    isEnd ((together who (emptyDisk, fun j => start tally (cs j))).2 0) = some none ∧
    isEnd ((together who (emptyDisk, fun j => start tally (cs j))).2 1) = some none ∧
    (files true "Puma".toList).map (together who (emptyDisk, fun j => start tally (cs j))).1 =
      [some "xx.".toList, some "<yy>".toList, some "zz".toList, some "ww".toList] ∧
    (files false "Wrist".toList).map (together who (emptyDisk, fun j => start tally (cs j))).1 =
      [some "x.".toList, some "z".toList, some "<y>".toList] := by
  refine ⟨fun j hj hne => ?_, ?_, ?_, ?_, ?_⟩
  · dsimp only
    rw [if_neg hne, if_pos rfl]
    exact .inl ⟨by decide, by decide +kernel⟩
  all_goals decide +kernel

/-- the disk with a pickle of `Puma` -/
def pumaDisk : Disk := emptyDisk.set (pickleFile "Puma".toList) "xx.".toList

/-- The same command three times, with `fkOnly.py` for the same robot: the conditions of `C86_all_partial`. In the middle a file has a hole. -/
example : let cs : Nat → Cmd Nat := fun j => if j = 3 then ⟨false, "Puma".toList, 2⟩ else ⟨true, "Puma".toList, 2⟩
    let who := steps 6 0 ++ steps 4 1
    let who' := who ++ (steps 1 0 ++ steps 5 1 ++ steps 30 3 ++ steps 10 2 ++ steps 20 0 ++ steps 20 1 ++ steps 20 2)
    (together (who ++ [0]) (pumaDisk, fun j => start tally (cs j))).1 (ikTexFile "Puma".toList) = some [Char.ofNat 0, Char.ofNat 0, 'y'] ∧
    (∀ j ∈ who', pumaDisk (pickleFile (cs j).name) ≠ none) ∧
    (∀ j ∈ [0, 1, 2, 3], isEnd ((together who' (pumaDisk, fun j => start tally (cs j))).2 j) = some none) ∧
    (files true "Puma".toList).map (together who' (pumaDisk, fun j => start tally (cs j))).1 =
      [some "xx.".toList, some "<yy>".toList, some "zz".toList, some "ww".toList] ∧
    (files false "Puma".toList).map (together who' (pumaDisk, fun j => start tally (cs j))).1 =
      [some "xx.".toList, some "zz".toList, some "<yy>".toList] := by
  refine ⟨?_, fun j _ => ?_, ?_, ?_, ?_⟩
  · decide +kernel
  · have : ∀ c : Cmd Nat, c.name = "Puma".toList → pumaDisk (pickleFile c.name) ≠ none := fun c hc => by rw [hc]; decide +kernel
    apply this
    dsimp only
    split <;> rfl
  all_goals decide +kernel

/-- **C86 violated.** The two programs for a robot without a pickle, at the same time: one finds the pickle that the other has just opened, and ends with an
exception; its files are not written. One after the other, in either order, all files are written. -/
theorem C86_first_runs_violation : ∃ (cs : Nat → Cmd Nat) (who : List Nat),
    isEnd ((together who (emptyDisk, fun j => start tally (cs j))).2 0) = some none ∧
    isEnd ((together who (emptyDisk, fun j => start tally (cs j))).2 1) = some (some .raised) ∧
    (together who (emptyDisk, fun j => start tally (cs j))).1 (fkPyFile "Puma".toList) = none ∧
    afterAll tally emptyDisk [⟨true, "Puma".toList, 2, none⟩, ⟨false, "Puma".toList, 2, none⟩] (fkPyFile "Puma".toList) = some "zz".toList ∧
    afterAll tally emptyDisk [⟨false, "Puma".toList, 2, none⟩, ⟨true, "Puma".toList, 2, none⟩] (fkPyFile "Puma".toList) = some "zz".toList := by
  refine ⟨fun j => if j = 0 then ⟨true, "Puma".toList, 2⟩ else ⟨false, "Puma".toList, 2⟩, steps 3 0 ++ steps 2 1 ++ steps 30 0, ?_, ?_, ?_, ?_, ?_⟩ <;>
    decide +kernel

/-- **C86 violated.** Two robots whose names differ in `test: ` only: their programs are mixed into one that neither has written. -/
theorem C86_mixed_program_violation : ∃ (cs : Nat → Cmd Text) (who : List Nat),
    (after (toy []) emptyDisk ⟨(cs 0).solver, (cs 0).name, (cs 0).desc, none⟩ (ikPyFile "Wrist".toList) = some "def a".toList) ∧
    (after (toy []) emptyDisk ⟨(cs 1).solver, (cs 1).name, (cs 1).desc, none⟩ (ikPyFile "Wrist".toList) = some "def bc".toList) ∧
    isEnd ((together who (emptyDisk, fun j => start (toy []) (cs j))).2 0) = some none ∧
    isEnd ((together who (emptyDisk, fun j => start (toy []) (cs j))).2 1) = some none ∧
    (together who (emptyDisk, fun j => start (toy []) (cs j))).1 (ikPyFile "Wrist".toList) = some "def ac".toList := by
  refine ⟨fun j => if j = 0 then ⟨true, "Wrist".toList, ['a']⟩ else ⟨true, "test: Wrist".toList, ['b', 'c']⟩,
    steps 11 0 ++ steps 19 1 ++ steps 20 0 ++ steps 20 1, ?_, ?_, ?_, ?_, ?_⟩ <;> decide +kernel

end Verif.Main.Disk
