import Verif.Main.DiskProps
import Verif.Out.RobotTable

/-!
# C85: the theorems
-/
namespace Verif.Main.Disk
open Verif.Out

variable {D K S : Type}

/-- The files that a program writes for a robot, in order. (specification) -/
def files (solver : Bool) (n : Text) : List Path :=
  if solver then [pickleFile n, ikTexFile n, ikPyFile n, cppFile n] else [pickleFile n, fkPyFile n, fkTexFile n]

/-! ## Lemmas on plans -/

theorem play_off (lost : Nat) : ∀ (l : List (Path × Text × Bool)) (k : Option Nat) (d : Disk) (p : Path), p ∉ l.map (·.1) →
    play lost l k d p = d p
  | [], _, _, _, _ => rfl
  | (q, t, b) :: l, k, d, p, h => by
    simp only [List.map_cons, List.mem_cons, not_or] at h
    rw [play_cons]
    split
    · cases b
      · simp only [Bool.false_eq_true, if_false]; rw [play_off lost l _ _ p h.2, set_other _ _ h.1]
      · exact set_other _ _ h.1
    · rfl
    · exact set_other _ _ h.1
    · exact set_other _ _ h.1
    · cases b
      · simp only [Bool.false_eq_true, if_false]; rw [play_off lost l _ _ p h.2, set_other _ _ h.1]
      · exact set_other _ _ h.1

theorem set_congr {d d' : Disk} (p : Path) (t : Text) {q : Path} (h : d q = d' q) : d.set p t q = d'.set p t q := by
  by_cases e : q = p <;> simp [Disk.set, e, h]

theorem play_congr (lost : Nat) : ∀ (l : List (Path × Text × Bool)) (k : Option Nat) (d d' : Disk) (p : Path), d p = d' p →
    play lost l k d p = play lost l k d' p
  | [], _, _, _, _, h => h
  | (q, t, b) :: l, k, d, d', p, h => by
    rw [play_cons, play_cons]
    match k with
    | none =>
      cases b
      · exact play_congr lost l none _ _ p (set_congr q t h)
      · exact set_congr q t h
    | some 0 => exact h
    | some 1 => exact set_congr q _ h
    | some 2 => exact set_congr q _ h
    | some (k + 3) =>
      cases b
      · exact play_congr lost l (some k) _ _ p (set_congr q t h)
      · exact set_congr q t h

/-- (proof) The number of lost characters plays no role without a kill. -/
theorem play_none (lost lost' : Nat) : ∀ (l : List (Path × Text × Bool)) (d : Disk), play lost l none d = play lost' l none d
  | [], _ => rfl
  | (q, t, b) :: l, d => by
    rw [play_cons, play_cons]
    cases b
    · exact play_none lost lost' l _
    · rfl

/-- (proof) -/
theorem play_cases (lost : Nat) : ∀ (l : List (Path × Text × Bool)) (k : Nat) (d : Disk) (p : Path), (l.map (·.1)).Nodup →
    play lost l (some k) d p = d p ∨ play lost l (some k) d p = play lost l none d p ∨
      ∃ t t', play lost l none d p = some t ∧ play lost l (some k) d p = some t' ∧ t' <+: t
  | [], _, _, _, _ => .inl rfl
  | (q, t, b) :: l, k, d, p, hn => by
    simp only [List.map_cons, List.nodup_cons] at hn
    have full : p = q → play lost ((q, t, b) :: l) none d p = some t := by
      rintro rfl
      rw [play_cons]
      cases b
      · simp only [Bool.false_eq_true, if_false]; rw [play_off lost l _ _ p hn.1, set_get]
      · exact set_get d p t
    match k with
    | 0 => exact .inl rfl
    | 1 =>
      by_cases h : p = q
      · refine .inr (.inr ⟨t, [], full h, ?_, List.nil_prefix⟩)
        rw [h]; exact set_get d q []
      · exact .inl (set_other d [] h)
    | 2 =>
      by_cases h : p = q
      · refine .inr (.inr ⟨t, _, full h, ?_, List.take_prefix (t.length - lost) t⟩)
        rw [h]; exact set_get d q _
      · left; exact set_other d _ h
    | k + 3 =>
      cases b
      · have e1 : play lost ((q, t, false) :: l) (some (k + 3)) d p = play lost l (some k) (d.set q t) p := rfl
        have e2 : play lost ((q, t, false) :: l) none d p = play lost l none (d.set q t) p := rfl
        rw [e1, e2]
        rcases play_cases lost l k (d.set q t) p hn.2 with h | h | h
        · by_cases hp : p = q
          · right; left
            rw [h, play_off lost l none (d.set q t) p (hp ▸ hn.1)]
          · left; rw [h, set_other _ _ hp]
        · exact .inr (.inl h)
        · exact .inr (.inr h)
      · exact .inr (.inl rfl)

/-- (proof) A file that is touched comes after files that are complete. -/
theorem play_order (lost : Nat) : ∀ (l : List (Path × Text × Bool)) (k : Nat) (d : Disk), (l.map (·.1)).Nodup →
    ∀ p q, [p, q].Sublist (l.map (·.1)) → play lost l (some k) d q ≠ d q → play lost l (some k) d p = play lost l none d p
  | [], _, _, _, p, q, h, _ => by simp at h
  | (x, t, b) :: l, k, d, hn, p, q, hs, hq => by
    simp only [List.map_cons, List.nodup_cons] at hn hs
    have hq' : q ≠ x := by
      rintro rfl
      rcases List.sublist_cons_iff.1 hs with h | ⟨r, hr, h⟩
      · exact hn.1 (h.subset (by simp))
      · cases hr; exact hn.1 (h.subset (by simp))
    match k with
    | 0 => exact absurd rfl hq
    | 1 => exact absurd (set_other d [] hq') hq
    | 2 => exact absurd (by cases b <;> exact set_other d _ hq') hq
    | k + 3 =>
      cases b
      · have e1 : ∀ y, play lost ((x, t, false) :: l) (some (k + 3)) d y = play lost l (some k) (d.set x t) y := fun _ => rfl
        have e2 : ∀ y, play lost ((x, t, false) :: l) none d y = play lost l none (d.set x t) y := fun _ => rfl
        rw [e1] at hq ⊢
        rw [e2]
        rcases List.sublist_cons_iff.1 hs with h | ⟨r, hr, h⟩
        · exact play_order lost l k _ hn.2 p q h (by rwa [set_other _ _ hq'])
        · cases hr
          rw [play_off lost l _ _ _ hn.1, play_off lost l _ _ _ hn.1]
      · rfl

/-- (proof) the files of a plan that are written before an exception -/
def touched : List (Path × Text × Bool) → List Path
  | [] => []
  | (p, _, b) :: l => if b then [p] else p :: touched l

theorem touched_sub : ∀ (l : List (Path × Text × Bool)) (p : Path), p ∈ touched l → p ∈ l.map (·.1)
  | [], _, h => by simp [touched] at h
  | (q, t, b) :: l, p, h => by
    cases b
    · simp only [touched, Bool.false_eq_true, if_false, List.mem_cons] at h
      rcases h with h | h
      · simp [h]
      · exact List.mem_cons_of_mem _ (touched_sub l p h)
    · simp only [touched, if_true, List.mem_singleton] at h
      simp [h]

theorem play_untouched (lost : Nat) : ∀ (l : List (Path × Text × Bool)) (k : Option Nat) (d : Disk) (p : Path), p ∉ touched l →
    play lost l k d p = d p
  | [], _, _, _, _ => rfl
  | (q, t, b) :: l, k, d, p, h => by
    rw [play_cons]
    cases b
    · simp only [touched, Bool.false_eq_true, if_false, List.mem_cons, not_or] at h
      match k with
      | none => simp only [Bool.false_eq_true, if_false]; rw [play_untouched lost l _ _ p h.2, set_other _ _ h.1]
      | some 0 => rfl
      | some 1 => exact set_other _ _ h.1
      | some 2 => exact set_other _ _ h.1
      | some (k + 3) => simp only [Bool.false_eq_true, if_false]; rw [play_untouched lost l _ _ p h.2, set_other _ _ h.1]
    · simp only [touched, if_true, List.mem_singleton] at h
      match k with
      | none => exact set_other _ _ h
      | some 0 => rfl
      | some 1 => exact set_other _ _ h
      | some 2 => exact set_other _ _ h
      | some (k + 3) => exact set_other _ _ h

/-- (proof) A completed plan makes disks equal that differ in the touched files only. -/
theorem play_same (lost : Nat) : ∀ (l : List (Path × Text × Bool)) (d d' : Disk), (∀ p, p ∉ touched l → d p = d' p) →
    play lost l none d = play lost l none d'
  | [], d, d', h => funext fun p => h p (by simp [touched])
  | (q, t, b) :: l, d, d', h => by
    rw [play_cons, play_cons]
    cases b
    · refine play_same lost l _ _ fun p hp => ?_
      by_cases e : p = q
      · simp [Disk.set, e]
      · rw [set_other _ _ e, set_other _ _ e]
        exact h p (by simp [touched, e, hp])
    · funext p
      by_cases e : p = q
      · simp [Disk.set, e]
      · show d.set q t p = d'.set q t p
        rw [set_other _ _ e, set_other _ _ e]
        exact h p (by simp [touched, e])

theorem rest_sub (P : Prog D K S) (d : Disk) (solver : Bool) (n : Text) (k : K) (e : D) :
    ((rest P d solver n k e).map (·.1)).Sublist (files solver n).tail := by
  unfold rest files
  cases solver
  · split
    · simp only [Bool.false_eq_true, if_false, List.map_cons, List.tail_cons]
      refine List.Sublist.cons_cons _ ?_
      split
      · split <;> simp
      · simp
    · simp
  · split
    · simp only [if_true, List.tail_cons]
      split
      · simp
      · split
        · split <;> simp
        · simp
    · simp

theorem plan_sub (P : Prog D K S) (d : Disk) (solver : Bool) (n : Text) (e : D) :
    ((plan P d solver n e).map (·.1)).Sublist (files solver n) := by
  have hf : files solver n = pickleFile n :: (files solver n).tail := by unfold files; cases solver <;> rfl
  unfold plan
  split
  · split
    · exact List.nil_sublist _
    · exact (rest_sub P d solver n _ _).trans (List.tail_sublist _)
  · rw [hf]
    exact List.Sublist.cons_cons _ (rest_sub P d solver n _ _)

section
variable (n m : Text)
theorem pickle_ne_ikTex : pickleFile n ≠ ikTexFile m := ne_of_take 8 (by rw [take_pickle, take_ikTex]; decide)
theorem pickle_ne_fkTex : pickleFile n ≠ fkTexFile m := ne_of_take 8 (by rw [take_pickle, take_fkTex]; decide)
theorem pickle_ne_ikPy : pickleFile n ≠ ikPyFile m := ne_of_take 8 (by rw [take_pickle, take_ikPy8]; decide)
theorem pickle_ne_fkPy : pickleFile n ≠ fkPyFile m := ne_of_take 8 (by rw [take_pickle, take_fkPy8]; decide)
theorem pickle_ne_cpp : pickleFile n ≠ cppFile m := ne_of_take 8 (by rw [take_pickle, take_cpp8]; decide)
theorem ikTex_ne_fkTex : ikTexFile n ≠ fkTexFile m := ne_of_take 8 (by rw [take_ikTex, take_fkTex]; decide)
theorem ikTex_ne_ikPy : ikTexFile n ≠ ikPyFile m := ne_of_take 8 (by rw [take_ikTex, take_ikPy8]; decide)
theorem ikTex_ne_fkPy : ikTexFile n ≠ fkPyFile m := ne_of_take 8 (by rw [take_ikTex, take_fkPy8]; decide)
theorem ikTex_ne_cpp : ikTexFile n ≠ cppFile m := ne_of_take 8 (by rw [take_ikTex, take_cpp8]; decide)
theorem fkTex_ne_ikPy : fkTexFile n ≠ ikPyFile m := ne_of_take 8 (by rw [take_fkTex, take_ikPy8]; decide)
theorem fkTex_ne_fkPy : fkTexFile n ≠ fkPyFile m := ne_of_take 8 (by rw [take_fkTex, take_fkPy8]; decide)
theorem fkTex_ne_cpp : fkTexFile n ≠ cppFile m := ne_of_take 8 (by rw [take_fkTex, take_cpp8]; decide)
theorem ikPy_ne_fkPy : ikPyFile n ≠ fkPyFile m := ne_of_take 16 (by rw [take_ikPy, take_fkPy]; decide)
theorem ikPy_ne_cpp : ikPyFile n ≠ cppFile m := ne_of_take 16 (by rw [take_ikPy, take_cpp]; decide)
theorem fkPy_ne_cpp : fkPyFile n ≠ cppFile m := ne_of_take 16 (by rw [take_fkPy, take_cpp]; decide)
end

theorem files_nodup (solver : Bool) (n : Text) : (files solver n).Nodup := by
  cases solver
  · simp [files, pickle_ne_fkPy, pickle_ne_fkTex, (fkTex_ne_fkPy n n).symm]
  · simp [files, pickle_ne_ikTex, pickle_ne_ikPy, pickle_ne_cpp, ikTex_ne_ikPy, ikTex_ne_cpp, ikPy_ne_cpp]

theorem template_not_file {p : Path} (hp : p = preambleFile ∨ p = closeFile) (solver : Bool) (n : Text) : p ∉ files solver n := by
  have h8 : p.take 8 = "LaTex/IK".toList := by rcases hp with rfl | rfl <;> rfl
  intro h
  have h' : p.take 8 ∈ ["fk_eqns/".toList, "LaTex/ik".toList, "LaTex/fk".toList, "CodeGen/".toList] := by
    cases solver
    · simp only [files, Bool.false_eq_true, if_false, List.mem_cons, List.not_mem_nil, or_false] at h
      rcases h with rfl | rfl | rfl
      · rw [take_pickle]; simp
      · rw [take_fkPy8]; simp
      · rw [take_fkTex]; simp
    · simp only [files, if_true, List.mem_cons, List.not_mem_nil, or_false] at h
      rcases h with rfl | rfl | rfl | rfl
      · rw [take_pickle]; simp
      · rw [take_ikTex]; simp
      · rw [take_ikPy8]; simp
      · rw [take_cpp8]; simp
  rw [h8] at h'
  revert h'
  decide

/-- (proof) -/
theorem sublist_pair {p q : Path} {l f : List Path} (h : l.Sublist f) : f.Nodup → [p, q].Sublist f → p ∈ l → q ∈ l → [p, q].Sublist l := by
  induction h with
  | slnil => intro _ _ hp; simp at hp
  | @cons l f a h ih =>
    intro hn hs hp hq
    rw [List.nodup_cons] at hn
    rcases List.sublist_cons_iff.1 hs with h' | ⟨r, hr, h'⟩
    · exact ih hn.2 h' hp hq
    · cases hr; exact absurd (h.subset hp) hn.1
  | @cons_cons l f a h ih =>
    intro hn hs hp hq
    rw [List.nodup_cons] at hn
    rcases List.sublist_cons_iff.1 hs with h' | ⟨r, hr, h'⟩
    · have hpf : p ∈ f := h'.subset (by simp)
      have hqf : q ∈ f := h'.subset (by simp)
      have hpa : p ≠ a := fun e => hn.1 (e ▸ hpf)
      have hqa : q ≠ a := fun e => hn.1 (e ▸ hqf)
      exact (ih hn.2 h' (by simpa [hpa] using hp) (by simpa [hqa] using hq)).cons _
    · cases hr
      have hqf : q ∈ f := h'.subset (by simp)
      have hqa : q ≠ p := fun e => hn.1 (e ▸ hqf)
      exact List.Sublist.cons_cons _ (by simpa [hqa] using hq)

/-! ## The theorems -/

/-- However a run ends, and wherever it is killed: files that are not the program's files for this robot are as before; every file is as before, or as
the undisturbed run leaves it, or a beginning of that; and if a file has changed, the files before it in the order of writing are as the undisturbed
run leaves them — so at most one file is incomplete. -/
theorem C85_one_file_torn (P : Prog D K S) (d : Disk) (r : Run D) :
    (∀ p, p ∉ files r.solver r.name → after P d r p = d p) ∧
    (∀ p, after P d r p = d p ∨ after P d r p = after P d { r with kill := none } p ∨
      ∃ t t', after P d { r with kill := none } p = some t ∧ after P d r p = some t' ∧ t' <+: t) ∧
    (∀ p q, [p, q].Sublist (files r.solver r.name) → after P d r q ≠ d q → after P d r p = after P d { r with kill := none } p) := by
  have hs := plan_sub P d r.solver r.name r.desc
  have hn := hs.nodup (files_nodup r.solver r.name)
  have hfull : after P d { r with kill := none } = play ((r.kill.map (·.2)).getD 0) (plan P d r.solver r.name r.desc) none d := by
    rw [after_eq]; exact play_none _ _ _ _
  rw [hfull, after_eq]
  generalize (r.kill.map (·.2)).getD 0 = lost
  refine ⟨fun p hp => play_off lost _ _ d p fun h => hp (hs.subset h), fun p => ?_, fun p q hpq hq => ?_⟩
  · cases r.kill with
    | none => exact .inr (.inl rfl)
    | some k => exact play_cases lost _ k.1 d p hn
  · cases hk : r.kill with
    | none => rfl
    | some k =>
      rw [hk] at hq
      have hq' : q ∈ (plan P d r.solver r.name r.desc).map (·.1) := Decidable.byContradiction fun h => hq (play_off lost _ _ d q h)
      by_cases hp' : p ∈ (plan P d r.solver r.name r.desc).map (·.1)
      · exact play_order lost _ k.1 d hn p q (sublist_pair hs (files_nodup r.solver r.name) hpq hp' hq') hq
      · rw [play_off lost _ _ d p hp', play_off lost _ _ d p hp']

theorem append_cancel_mid {a b x y : Text} (h : a ++ x ++ b = a ++ y ++ b) : x = y := by
  simpa using h

/-- The files, by their names; and the two programs share the pickles only: a file of one that is a file of the other (for any robots) is the pickle. -/
theorem C85_file_names (n m : Text) :
    files true n = ["fk_eqns/".toList ++ n ++ "_pickle.p".toList, "LaTex/ik_solution_".toList ++ dropTest n ++ ".tex".toList,
      "CodeGen/Python/IK_equations".toList ++ dropTest n ++ ".py".toList, "CodeGen/Cpp/IK_equations".toList ++ dropTest n ++ ".cpp".toList] ∧
    files false n = ["fk_eqns/".toList ++ n ++ "_pickle.p".toList, "CodeGen/Python/FK_equations".toList ++ dropTest n ++ ".py".toList,
      "LaTex/fk_equations_".toList ++ dropTest n ++ ".tex".toList] ∧
    ∀ p, p ∈ files true n → p ∈ files false m → p = "fk_eqns/".toList ++ n ++ "_pickle.p".toList ∧ n = m := by
  refine ⟨?_, ?_, fun p hp hm => ?_⟩
  · show [_, _, _, _] = _
    rw [ikTexFile_eq]; rfl
  · show [_, _, _] = _
    rw [fkTexFile_eq]; rfl
  · simp only [files, Bool.false_eq_true, if_false, if_true, List.mem_cons, List.not_mem_nil, or_false] at hp hm
    rcases hp with rfl | rfl | rfl | rfl
    · refine ⟨rfl, ?_⟩
      rcases hm with h | h | h
      · exact append_cancel_mid h
      · exact absurd h (pickle_ne_fkPy _ _)
      · exact absurd h (pickle_ne_fkTex _ _)
    · rcases hm with h | h | h
      · exact absurd h.symm (pickle_ne_ikTex _ _)
      · exact absurd h (ikTex_ne_fkPy _ _)
      · exact absurd h (ikTex_ne_fkTex _ _)
    · rcases hm with h | h | h
      · exact absurd h.symm (pickle_ne_ikPy _ _)
      · exact absurd h (ikPy_ne_fkPy _ _)
      · exact absurd h.symm (fkTex_ne_ikPy _ _)
    · rcases hm with h | h | h
      · exact absurd h.symm (pickle_ne_cpp _ _)
      · exact absurd h.symm (fkPy_ne_cpp _ _)
      · exact absurd h.symm (fkTex_ne_cpp _ _)

/-- a robot of the tests -/
example : files true "test: Wrist".toList = ["fk_eqns/test: Wrist_pickle.p", "LaTex/ik_solution_Wrist.tex", "CodeGen/Python/IK_equationsWrist.py",
    "CodeGen/Cpp/IK_equationsWrist.cpp"].map String.toList := by decide +kernel

/-- The templates of the reports are never written. -/
theorem C85_templates (P : Prog D K S) (d : Disk) (rs : List (Run D)) :
    afterAll P d rs preambleFile = d preambleFile ∧ afterAll P d rs closeFile = d closeFile := by
  induction rs generalizing d with
  | nil => exact ⟨rfl, rfl⟩
  | cons r rs ih =>
    obtain ⟨h1, h2⟩ := ih (after P d r)
    obtain ⟨h3, _⟩ := C85_one_file_torn P d r
    exact ⟨h1.trans (h3 _ (template_not_file (.inl rfl) _ _)), h2.trans (h3 _ (template_not_file (.inr rfl) _ _))⟩

/-- (proof) A run looks at the pickle of its robot and at the templates only. -/
theorem plan_congr (P : Prog D K S) {d d' : Disk} (solver : Bool) (n : Text) (e : D) (h1 : d (pickleFile n) = d' (pickleFile n))
    (h2 : d preambleFile = d' preambleFile) (h3 : d closeFile = d' closeFile) : plan P d solver n e = plan P d' solver n e := by
  unfold plan rest
  rw [h1, h2, h3]

theorem file_of_other {n m : Text} (hn : m ≠ n) (hd : dropTest m ≠ dropTest n) {s s' : Bool} {p : Path} (hp : p ∈ files s n) : p ∉ files s' m := by
  intro hm
  have h1 : pickleFile m ≠ pickleFile n := fun h => hn (append_cancel_mid h)
  have h2 : ikTexFile m ≠ ikTexFile n := fun h => hd (append_cancel_mid (by rwa [ikTexFile_eq, ikTexFile_eq] at h))
  have h3 : fkTexFile m ≠ fkTexFile n := fun h => hd (append_cancel_mid (by rwa [fkTexFile_eq, fkTexFile_eq] at h))
  have h4 : ikPyFile m ≠ ikPyFile n := fun h => hd (append_cancel_mid h)
  have h5 : fkPyFile m ≠ fkPyFile n := fun h => hd (append_cancel_mid h)
  have h6 : cppFile m ≠ cppFile n := fun h => hd (append_cancel_mid h)
  cases s <;> cases s' <;>
    simp only [files, Bool.false_eq_true, if_false, if_true, List.mem_cons, List.not_mem_nil, or_false] at hp hm <;>
    rcases hp with rfl | rfl | rfl | rfl <;>
    simp [h1.symm, h2.symm, h3.symm, h4.symm, h5.symm, h6.symm, pickle_ne_ikTex, pickle_ne_fkTex, pickle_ne_ikPy, pickle_ne_fkPy, pickle_ne_cpp,
      ikTex_ne_fkTex, ikTex_ne_ikPy, ikTex_ne_fkPy, ikTex_ne_cpp, fkTex_ne_ikPy, fkTex_ne_fkPy, fkTex_ne_cpp, ikPy_ne_fkPy, ikPy_ne_cpp, fkPy_ne_cpp,
      (pickle_ne_ikTex _ _).symm, (pickle_ne_fkTex _ _).symm, (pickle_ne_ikPy _ _).symm, (pickle_ne_fkPy _ _).symm, (pickle_ne_cpp _ _).symm,
      (ikTex_ne_fkTex _ _).symm, (ikTex_ne_ikPy _ _).symm, (ikTex_ne_fkPy _ _).symm, (ikTex_ne_cpp _ _).symm, (fkTex_ne_ikPy _ _).symm,
      (fkTex_ne_fkPy _ _).symm, (fkTex_ne_cpp _ _).symm, (ikPy_ne_fkPy _ _).symm, (ikPy_ne_cpp _ _).symm, (fkPy_ne_cpp _ _).symm] at hm

/-- Runs for other robots do not matter: after every history of runs of the two programs, killed or not, the files of a robot are those after the runs
for this robot alone. The names of the other robots must differ from it also without the text `test: ` (`C85_test_name_violation`). -/
theorem C85_other_robots_partial (P : Prog D K S) (d : Disk) (rs : List (Run D)) (n : Text)
    (h : ∀ r ∈ rs, r.name ≠ n → dropTest r.name ≠ dropTest n) :
    ∀ s, ∀ p ∈ files s n, afterAll P d rs p = afterAll P d (rs.filter fun r => r.name = n) p := by
  suffices H : ∀ (rs : List (Run D)) (d d' : Disk), (∀ r ∈ rs, r.name ≠ n → dropTest r.name ≠ dropTest n) →
      (∀ s, ∀ p ∈ files s n, d p = d' p) → d preambleFile = d' preambleFile → d closeFile = d' closeFile →
      ∀ s, ∀ p ∈ files s n, afterAll P d rs p = afterAll P d' (rs.filter fun r => r.name = n) p from
    H rs d d h (fun _ _ _ => rfl) rfl rfl
  intro rs
  induction rs with
  | nil => intro d d' _ hf _ _; exact hf
  | cons r rs ih =>
    intro d d' hr hf h1 h2
    have hpre : ∀ (x : Disk), after P x r preambleFile = x preambleFile := fun x =>
      (C85_one_file_torn P x r).1 _ (template_not_file (.inl rfl) _ _)
    have hclo : ∀ (x : Disk), after P x r closeFile = x closeFile := fun x =>
      (C85_one_file_torn P x r).1 _ (template_not_file (.inr rfl) _ _)
    by_cases hname : r.name = n
    · rw [List.filter_cons_of_pos (by simpa using hname)]
      refine ih (after P d r) (after P d' r) (fun r' hr' => hr r' (by simp [hr'])) (fun s p hp => ?_)
        (by rw [hpre, hpre, h1]) (by rw [hclo, hclo, h2])
      have hpick : d (pickleFile r.name) = d' (pickleFile r.name) := hf true _ (by rw [hname]; simp [files])
      rw [after_eq, after_eq, plan_congr P r.solver r.name r.desc hpick h1 h2]
      exact play_congr _ _ _ _ _ p (hf s p hp)
    · rw [List.filter_cons_of_neg (by simpa using hname)]
      refine ih (after P d r) d' (fun r' hr' => hr r' (by simp [hr'])) (fun s p hp => ?_) (by rw [hpre, h1]) (by rw [hclo, h2])
      rw [(C85_one_file_torn P d r).1 p (file_of_other hname (hr r (by simp) hname) hp)]
      exact hf s p hp

/-- For the robots of `ik_robots.py` there is no such condition. -/
theorem C85_offered_robots (P : Prog D K S) (d : Disk) (rs : List (Run D)) (n : Text) (hn : n ∈ offered.map String.toList)
    (hr : ∀ r ∈ rs, r.name ∈ offered.map String.toList) :
    ∀ s, ∀ p ∈ files s n, afterAll P d rs p = afterAll P d (rs.filter fun r => r.name = n) p := by
  have key : ∀ x ∈ offered.map String.toList, dropTest x = x := by decide +kernel
  exact C85_other_robots_partial P d rs n fun r h hne => by rwa [key _ (hr r h), key n hn]

/-- The same command, killed any number of times anywhere and then not: if the pickle is not damaged, the disk is as if it had never been killed. Needed of
pickles: what is dumped is loaded, and a pickle that is cut off is not. Needed of the robot: there is a pickle from before, or the forward
kinematics adds no parameters (`C85_rerun_violation`). -/
theorem C85_rerun_partial (P : Prog D K S) (hload : ∀ k, P.load (P.dump k) = some k)
    (hcut : ∀ k t, t <+: P.dump k → t ≠ P.dump k → P.load t = none) (d : Disk) (r : Run D)
    (hg : d (pickleFile r.name) ≠ none ∨ P.grown r.desc = r.desc) (ks : List (Nat × Nat))
    (hok : ∀ t, afterAll P d (ks.map fun k => { r with kill := some k }) (pickleFile r.name) = some t → P.load t ≠ none) :
    after P (afterAll P d (ks.map fun k => { r with kill := some k })) { r with kill := none } = after P d { r with kill := none } := by
  obtain ⟨solver, n, e, kl⟩ := r
  dsimp only at *
  clear kl
  have hpick : ∀ (x : Disk) k e', pickleFile n ∉ (rest P x solver n k e').map (·.1) := fun x k e' h => by
    have h1 := (rest_sub P x solver n k e').subset h
    have h2 := files_nodup solver n
    have hf : files solver n = pickleFile n :: (files solver n).tail := by unfold files; cases solver <;> rfl
    rw [hf, List.nodup_cons] at h2
    exact h2.1 h1
  -- the three states of the pickle
  let A : Disk → Prop := fun x => x (pickleFile n) = d (pickleFile n) ∧ ∀ p, p ∉ touched (plan P d solver n e) → x p = d p
  let B : Disk → Prop := fun x => d (pickleFile n) = none ∧ x (pickleFile n) = some (P.dump (P.fk e)) ∧
    ∀ p, p ≠ pickleFile n → p ∉ touched (rest P d solver n (P.fk e) (P.grown e)) → x p = d p
  let C : Disk → Prop := fun x => ∃ t, x (pickleFile n) = some t ∧ P.load t = none
  have tmpl : ∀ x : Disk, A x ∨ B x → x preambleFile = d preambleFile ∧ x closeFile = d closeFile := by
    have ht : ∀ p, p = preambleFile ∨ p = closeFile → p ∉ touched (plan P d solver n e) := fun p hp h =>
      template_not_file hp solver n ((plan_sub P d solver n e).subset (touched_sub _ p h))
    have hr : ∀ p, p = preambleFile ∨ p = closeFile → p ∉ touched (rest P d solver n (P.fk e) (P.grown e)) := fun p hp h =>
      template_not_file hp solver n (List.mem_of_mem_tail ((rest_sub P d solver n _ _).subset (touched_sub _ p h)))
    rintro x (⟨_, h⟩ | ⟨_, _, h⟩)
    · exact ⟨h _ (ht _ (.inl rfl)), h _ (ht _ (.inr rfl))⟩
    · exact ⟨h _ (pre_ne_pickle n) (hr _ (.inl rfl)), h _ (close_ne_pickle n) (hr _ (.inr rfl))⟩
  have planB : ∀ x : Disk, B x → plan P x solver n e = rest P d solver n (P.fk e) (P.grown e) := by
    intro x hx
    obtain ⟨t1, t2⟩ := tmpl x (.inr hx)
    obtain ⟨h1, h2, _⟩ := hx
    have hg' : P.grown e = e := by rcases hg with h | h; exact absurd h1 h; exact h
    have : plan P x solver n e = rest P x solver n (P.fk e) e := by
      unfold plan; simp only [h2, hload]
    rw [this, hg']
    unfold rest
    rw [t1, t2]
  have planA : ∀ x : Disk, A x → plan P x solver n e = plan P d solver n e := fun x hx =>
    plan_congr P solver n e hx.1 (tmpl x (.inl hx)).1 (tmpl x (.inl hx)).2
  have step : ∀ x k, A x ∨ B x ∨ C x → A (after P x ⟨solver, n, e, some k⟩) ∨ B (after P x ⟨solver, n, e, some k⟩) ∨
      C (after P x ⟨solver, n, e, some k⟩) := by
    rintro x ⟨k, lost⟩ (hx | hx | ⟨t, h1, h2⟩)
    · rw [after_eq]
      simp only [planA x hx, Option.map_some, Option.getD_some]
      cases hp : d (pickleFile n) with
      | some t =>
        left
        have hnot : pickleFile n ∉ touched (plan P d solver n e) := by
          intro h
          have h := touched_sub _ _ h
          unfold plan at h
          rw [hp] at h
          dsimp only at h
          split at h
          · simp at h
          · exact hpick _ _ _ h
        refine ⟨?_, fun p hpn => by rw [play_untouched lost _ _ _ p hpn]; exact hx.2 p hpn⟩
        rw [play_untouched lost _ _ _ _ hnot, hx.1]
      | none =>
        have hpl : plan P d solver n e = (pickleFile n, P.dump (P.fk e), false) :: rest P d solver n (P.fk e) (P.grown e) := by
          unfold plan; rw [hp]
        have torn : ∀ t', t' <+: P.dump (P.fk e) → (B (x.set (pickleFile n) t') ∨ C (x.set (pickleFile n) t')) := by
          intro t' ht'
          by_cases heq : t' = P.dump (P.fk e)
          · left
            refine ⟨hp, by rw [set_get, heq], fun p hne hnt => ?_⟩
            rw [set_other _ _ hne]
            exact hx.2 p (by rw [hpl]; simp [touched, hne, hnt])
          · exact .inr ⟨t', set_get _ _ _, hcut _ _ ht' heq⟩
        rw [hpl]
        match k with
        | 0 => exact .inl hx
        | 1 => exact .inr (torn [] List.nil_prefix)
        | 2 => exact .inr (torn _ (List.take_prefix _ _))
        | k + 3 =>
          right; left
          have e1 : play lost ((pickleFile n, P.dump (P.fk e), false) :: rest P d solver n (P.fk e) (P.grown e)) (some (k + 3)) x =
            play lost (rest P d solver n (P.fk e) (P.grown e)) (some k) (x.set (pickleFile n) (P.dump (P.fk e))) := rfl
          rw [e1]
          refine ⟨hp, ?_, fun p hne hnt => ?_⟩
          · rw [play_off lost _ _ _ _ (hpick _ _ _), set_get]
          · rw [play_untouched lost _ _ _ p hnt, set_other _ _ hne]
            exact hx.2 p (by rw [hpl]; simp [touched, hne, hnt])
    · right; left
      rw [after_eq]
      simp only [planB x hx]
      refine ⟨hx.1, ?_, fun p hne hnt => ?_⟩
      · rw [play_off _ _ _ _ _ (hpick _ _ _)]; exact hx.2.1
      · rw [play_untouched _ _ _ _ p hnt]; exact hx.2.2 p hne hnt
    · right; right
      rw [after_eq]
      have : plan P x solver n e = [] := by unfold plan; simp only [h1, h2]
      simp only [this]
      exact ⟨t, h1, h2⟩
  have inv : ∀ (ks : List (Nat × Nat)) x, A x ∨ B x ∨ C x → A (afterAll P x (ks.map fun k => ⟨solver, n, e, some k⟩)) ∨
      B (afterAll P x (ks.map fun k => ⟨solver, n, e, some k⟩)) ∨ C (afterAll P x (ks.map fun k => ⟨solver, n, e, some k⟩)) := by
    intro ks
    induction ks with
    | nil => intro x h; exact h
    | cons k ks ih => intro x h; exact ih _ (step x k h)
  have h := inv ks d (.inl ⟨rfl, fun _ _ => rfl⟩)
  generalize afterAll P d (ks.map fun k => ⟨solver, n, e, some k⟩) = x at h hok ⊢
  rcases h with h | h | ⟨t, h1, h2⟩
  · rw [after_eq, after_eq]
    simp only [planA x h]
    exact play_same _ _ _ _ h.2
  · rw [after_eq, after_eq]
    simp only [planB x h]
    have hpl : plan P d solver n e = (pickleFile n, P.dump (P.fk e), false) :: rest P d solver n (P.fk e) (P.grown e) := by
      unfold plan; rw [h.1]
    rw [hpl]
    refine play_same _ _ _ (d.set (pickleFile n) (P.dump (P.fk e))) fun p hp => ?_
    by_cases hne : p = pickleFile n
    · rw [hne, set_get]; exact h.2.1
    · rw [set_other _ _ hne]; exact h.2.2 p hne hp
  · exact absurd h2 (hok t h1)

/-- A damaged pickle: nothing is written for the robot any more, whatever is run. -/
theorem C85_damaged_pickle (P : Prog D K S) (d : Disk) (n : Text) (t : Text) (h1 : d (pickleFile n) = some t) (h2 : P.load t = none)
    (rs : List (Run D)) (hr : ∀ r ∈ rs, r.name = n) : afterAll P d rs = d := by
  induction rs with
  | nil => rfl
  | cons r rs ih =>
    have hn := hr r (by simp)
    have : after P d r = d := by
      rw [after_eq, hn]
      have : plan P d r.solver n r.desc = [] := by unfold plan; simp only [h1, h2]
      rw [this]
      rfl
    show afterAll P (after P d r) rs = d
    rw [this]
    exact ih fun r' h' => hr r' (by simp [h'])

/-- A run of the solver that is not killed and in which nothing raises: the four files and their texts. -/
theorem C85_complete (P : Prog D K S) (d : Disk) (n : Text) (e e' : D) (k : K) (s : S) (a b t : Text)
    (hk : (∃ u, d (pickleFile n) = some u ∧ P.load u = some k ∧ e' = e) ∨ (d (pickleFile n) = none ∧ k = P.fk e ∧ e' = P.grown e))
    (hs : P.same k e' = true) (hsol : P.solve k e' = some s) (ha : d preambleFile = some a) (hb : d closeFile = some b)
    (ht : P.tex s a b = some t) (hpy : (P.py s).2 = false) :
    after P d ⟨true, n, e, none⟩ (ikTexFile n) = some t ∧ after P d ⟨true, n, e, none⟩ (ikPyFile n) = some (P.py s).1 ∧
    after P d ⟨true, n, e, none⟩ (cppFile n) = some (P.cpp s).1 ∧
    (d (pickleFile n) = none → after P d ⟨true, n, e, none⟩ (pickleFile n) = some (P.dump k)) := by
  have hrest : rest P d true n k e' = [(ikTexFile n, t, false), (ikPyFile n, P.py s), (cppFile n, P.cpp s)] := by
    unfold rest; simp only [hs, if_true, hsol, ha, hb, ht]
  have hplay : ∀ (x : Disk), play 0 (rest P d true n k e') none x = ((x.set (ikTexFile n) t).set (ikPyFile n) (P.py s).1).set (cppFile n) (P.cpp s).1 := by
    intro x
    rw [hrest, play_cons]
    simp only [Bool.false_eq_true, if_false]
    rw [play_cons]
    simp only [hpy, Bool.false_eq_true, if_false]
    rw [play_cons]
    cases (P.cpp s).2 <;> rfl
  have hafter : ∃ x : Disk, (d (pickleFile n) = none → x (pickleFile n) = some (P.dump k)) ∧ after P d ⟨true, n, e, none⟩ =
      ((x.set (ikTexFile n) t).set (ikPyFile n) (P.py s).1).set (cppFile n) (P.cpp s).1 := by
    rw [after_eq]
    rcases hk with ⟨u, h1, h2, rfl⟩ | ⟨h1, rfl, rfl⟩
    · refine ⟨d, (fun h => by rw [h1] at h; cases h), ?_⟩
      have : plan P d true n e' = rest P d true n k e' := by unfold plan; simp only [h1, h2]
      show play 0 (plan P d true n e') none d = _
      rw [this, hplay]
    · refine ⟨d.set (pickleFile n) (P.dump (P.fk e)), fun _ => set_get _ _ _, ?_⟩
      have : plan P d true n e = (pickleFile n, P.dump (P.fk e), false) :: rest P d true n (P.fk e) (P.grown e) := by unfold plan; rw [h1]
      show play 0 (plan P d true n e) none d = _
      rw [this, play_cons]
      exact hplay _
  obtain ⟨x, hx, hafter⟩ := hafter
  rw [hafter]
  refine ⟨?_, ?_, ?_, fun h => ?_⟩
  · rw [set_other _ _ (ikTex_ne_cpp n n), set_other _ _ (ikTex_ne_ikPy n n), set_get]
  · rw [set_other _ _ (ikPy_ne_cpp n n), set_get]
  · rw [set_get]
  · rw [set_other _ _ (pickle_ne_cpp n n), set_other _ _ (pickle_ne_ikPy n n), set_other _ _ (pickle_ne_ikTex n n)]
    exact hx h

/-- An exception before the report is complete (in the solver, or while the report is made) leaves the report and the programs as they were; an exception
in `output_python_code` leaves the beginning of the Python program, the new report and the old C++ program. -/
theorem C85_exceptions (P : Prog D K S) (d : Disk) (n : Text) (e : D) (u : Text) (k : K) (h1 : d (pickleFile n) = some u) (h2 : P.load u = some k) :
    (P.solve k e = none → after P d ⟨true, n, e, none⟩ = d) ∧
    (∀ s a b, P.solve k e = some s → d preambleFile = some a → d closeFile = some b → P.tex s a b = none → after P d ⟨true, n, e, none⟩ = d) ∧
    (∀ s a b t, P.same k e = true → P.solve k e = some s → d preambleFile = some a → d closeFile = some b → P.tex s a b = some t → (P.py s).2 = true →
      after P d ⟨true, n, e, none⟩ = (d.set (ikTexFile n) t).set (ikPyFile n) (P.py s).1) := by
  have hp : plan P d true n e = rest P d true n k e := by unfold plan; simp only [h1, h2]
  refine ⟨fun h => ?_, fun s a b h ha hb ht => ?_, fun s a b t hs h ha hb ht hpy => ?_⟩
  · rw [after_eq]
    show play 0 (plan P d true n e) none d = d
    have : rest P d true n k e = [] := by unfold rest; simp [h]
    rw [hp, this]; rfl
  · rw [after_eq]
    show play 0 (plan P d true n e) none d = d
    have : rest P d true n k e = [] := by unfold rest; simp [h, ha, hb, ht]
    rw [hp, this]; rfl
  · rw [after_eq]
    show play 0 (plan P d true n e) none d = _
    have : rest P d true n k e = [(ikTexFile n, t, false), (ikPyFile n, P.py s), (cppFile n, P.cpp s)] := by
      unfold rest; simp only [hs, if_true, h, ha, hb, ht]
    rw [hp, this, play_cons]
    simp only [Bool.false_eq_true, if_false]
    rw [play_cons]
    simp only [hpy, if_true]

/-- A run of `fkOnly.py` that is not killed: the Python program, then the report; an exception in the first leaves the beginning of the program and the
old report, one in the second the new program and the old report. -/
theorem C85_complete_fk (P : Prog D K S) (d : Disk) (n : Text) (e e' : D) (k : K) (a b : Text)
    (hk : (∃ u, d (pickleFile n) = some u ∧ P.load u = some k ∧ e' = e) ∨ (d (pickleFile n) = none ∧ k = P.fk e ∧ e' = P.grown e))
    (hs : P.same k e' = true) (ha : d preambleFile = some a) (hb : d closeFile = some b) :
    after P d ⟨false, n, e, none⟩ (fkPyFile n) = some (P.fkpy k e').1 ∧
    (∀ t, (P.fkpy k e').2 = false → P.fktex k e' a b = some t → after P d ⟨false, n, e, none⟩ (fkTexFile n) = some t) ∧
    (((P.fkpy k e').2 = true ∨ P.fktex k e' a b = none) → after P d ⟨false, n, e, none⟩ (fkTexFile n) = d (fkTexFile n)) ∧
    (d (pickleFile n) = none → after P d ⟨false, n, e, none⟩ (pickleFile n) = some (P.dump k)) := by
  have hplay : ∃ x : Disk, (d (pickleFile n) = none → x (pickleFile n) = some (P.dump k)) ∧ (∀ p, p ≠ pickleFile n → x p = d p) ∧
      after P d ⟨false, n, e, none⟩ = play 0 (rest P d false n k e') none x := by
    rw [after_eq]
    rcases hk with ⟨u, h1, h2, rfl⟩ | ⟨h1, rfl, rfl⟩
    · refine ⟨d, (fun h => by rw [h1] at h; cases h), fun _ _ => rfl, ?_⟩
      have : plan P d false n e' = rest P d false n k e' := by unfold plan; simp only [h1, h2]
      show play 0 (plan P d false n e') none d = _
      rw [this]
    · refine ⟨d.set (pickleFile n) (P.dump (P.fk e)), fun _ => set_get _ _ _, fun p hp => set_other _ _ hp, ?_⟩
      have : plan P d false n e = (pickleFile n, P.dump (P.fk e), false) :: rest P d false n (P.fk e) (P.grown e) := by unfold plan; rw [h1]
      show play 0 (plan P d false n e) none d = _
      rw [this, play_cons]
      rfl
  obtain ⟨x, hx, hx', hafter⟩ := hplay
  rw [hafter]
  have hpx : ∀ k', play 0 (rest P d false n k e') k' x (pickleFile n) = x (pickleFile n) := fun k' =>
    play_off 0 _ _ _ _ fun h => by
      have h1 := (rest_sub P d false n k e').subset h
      simp [files, pickle_ne_fkPy, pickle_ne_fkTex] at h1
  have hr : rest P d false n k e' = (fkPyFile n, P.fkpy k e') ::
      (match P.fktex k e' a b with | some t => [(fkTexFile n, t, false)] | none => []) := by
    unfold rest
    simp only [hs, if_true, Bool.false_eq_true, if_false, ha, hb]
    cases P.fktex k e' a b <;> rfl
  refine ⟨?_, fun t hp ht => ?_, fun hp => ?_, fun h => by rw [hpx]; exact hx h⟩
  · rw [hr, play_cons]
    cases (P.fkpy k e').2
    · simp only [Bool.false_eq_true, if_false]
      rw [play_off, set_get]
      cases P.fktex k e' a b
      · simp
      · simp [(fkTex_ne_fkPy n n).symm]
    · exact set_get _ _ _
  · rw [hr, play_cons]
    simp only [hp, Bool.false_eq_true, if_false, ht]
    rw [play_cons]
    exact set_get _ _ _
  · rw [hr, play_cons]
    rcases hp with hp | hp
    · simp only [hp, if_true]
      rw [set_other _ _ (fkTex_ne_fkPy n n)]; exact hx' _ (pickle_ne_fkTex n n).symm
    · cases (P.fkpy k e').2
      · simp only [Bool.false_eq_true, if_false, hp]
        show x.set _ _ _ = _
        rw [set_other _ _ (fkTex_ne_fkPy n n)]; exact hx' _ (pickle_ne_fkTex n n).symm
      · simp only [if_true]
        rw [set_other _ _ (fkTex_ne_fkPy n n)]; exact hx' _ (pickle_ne_fkTex n n).symm

/-- If the pickle is of another description, the run stops without writing anything. -/
theorem C85_other_description (P : Prog D K S) (d : Disk) (r : Run D) (u : Text) (k : K) (h1 : d (pickleFile r.name) = some u) (h2 : P.load u = some k)
    (hs : P.same k r.desc = false) : after P d r = d := by
  rw [after_eq]
  have : plan P d r.solver r.name r.desc = [] := by
    unfold plan; simp only [h1, h2]; unfold rest; simp [hs]
  rw [this]
  rfl

/-! ## A concrete program, and the violations -/

/-- A robot is described by its parameters; the forward kinematics adds the parameter `c`; the pickle ends with a full stop; the outputs list the parameters. -/
def toy (adds : Text) : Prog Text Text Text where
  fk e := e
  grown e := e ++ adds
  dump k := k ++ ['.']
  load t := if t.getLast? = some '.' ∧ '.' ∉ t.dropLast then some t.dropLast else none
  same _ _ := true
  solve _ e := some e
  tex s a b := some (a ++ s ++ b)
  py s := ("def ".toList ++ s, false)
  cpp s := ("int ".toList ++ s, false)
  fkpy _ e := (e, false)
  fktex _ e a b := some (a ++ e ++ b)

/-- only the templates -/
def emptyDisk : Disk := fun p => if p = preambleFile then some ['<'] else if p = closeFile then some ['>'] else none

/-- A run that is not killed, and one killed while the Python program is written. -/
example : (files true "Puma".toList).map (after (toy []) emptyDisk ⟨true, "Puma".toList, ['a'], none⟩) =
      [some "a.".toList, some "<a>".toList, some "def a".toList, some "int a".toList] ∧
    (files true "Puma".toList).map (after (toy []) emptyDisk ⟨true, "Puma".toList, ['a'], some (8, 2)⟩) =
      [some "a.".toList, some "<a>".toList, some "def".toList, none] := by
  constructor <;> decide +kernel

/-- A robot is described by the number of its joints, which the pickle writes in strokes with a full stop. -/
def tally : Prog Nat Nat Nat where
  fk e := e
  grown e := e
  dump k := List.replicate k 'x' ++ ['.']
  load t := if t = List.replicate (t.length - 1) 'x' ++ ['.'] then some (t.length - 1) else none
  same k e := k == e
  solve _ e := some e
  tex s a b := some (a ++ List.replicate s 'y' ++ b)
  py s := (List.replicate s 'z', false)
  cpp s := (List.replicate s 'w', false)
  fkpy _ e := (List.replicate e 'z', false)
  fktex _ e a b := some (a ++ List.replicate e 'y' ++ b)

/-- The conditions of `C85_rerun_partial` hold, with a run killed twice that is then as if it had never been killed. -/
example : (∀ k, tally.load (tally.dump k) = some k) ∧ (∀ k t, t <+: tally.dump k → t ≠ tally.dump k → tally.load t = none) ∧
    tally.grown 3 = 3 ∧
    (∀ t, afterAll tally emptyDisk ([(5, 1), (7, 0)].map fun k => ⟨true, "Puma".toList, 3, some k⟩) (pickleFile "Puma".toList) = some t →
      tally.load t ≠ none) ∧
    (files true "Puma".toList).map (afterAll tally emptyDisk ([(5, 1), (7, 0)].map fun k => ⟨true, "Puma".toList, 3, some k⟩)) =
      [some "xxx.".toList, some "<yyy>".toList, some "zzz".toList, some []] ∧
    (files true "Puma".toList).map (after tally emptyDisk ⟨true, "Puma".toList, 3, none⟩) =
      [some "xxx.".toList, some "<yyy>".toList, some "zzz".toList, some "www".toList] := by
  refine ⟨fun k => by simp [tally], fun k t ht hne => ?_, rfl, ?_, by decide +kernel, by decide +kernel⟩
  · have hx : ∀ c ∈ t, c ≠ '.' := by
      have : t <+: List.replicate k 'x' := by
        rcases List.prefix_concat_iff.1 (show t <+: List.replicate k 'x' ++ ['.'] from ht) with h | h
        · exact absurd h hne
        · exact h
      intro c hc
      rw [List.eq_of_mem_replicate (this.subset hc)]
      decide
    have : t ≠ List.replicate (t.length - 1) 'x' ++ ['.'] := fun h => hx '.' (by rw [h]; simp) rfl
    simp [tally, this]
  · intro t ht
    have : afterAll tally emptyDisk ([(5, 1), (7, 0)].map fun k => ⟨true, "Puma".toList, 3, some k⟩) (pickleFile "Puma".toList) = some "xxx.".toList := by
      decide +kernel
    rw [this] at ht
    cases ht
    decide

/-- `fkOnly.py` for a new robot; and a robot with a pickle of another description. -/
example : (files false "Puma".toList).map (after tally emptyDisk ⟨false, "Puma".toList, 2, none⟩) =
      [some "xx.".toList, some "zz".toList, some "<yy>".toList] ∧
    tally.same 2 3 = false ∧
    (files true "Puma".toList).map (afterAll tally emptyDisk [⟨false, "Puma".toList, 2, none⟩, ⟨true, "Puma".toList, 3, none⟩]) =
      [some "xx.".toList, none, none, none] := by
  refine ⟨?_, rfl, ?_⟩ <;> decide +kernel

/-- **C85 violated.** The programs written earlier for the robot are lost when a run is killed just after it has opened the file: the file is empty, though
the run would have written the same text again. -/
theorem C85_lost_file_violation : ∃ (d : Disk) (r : Run Text),
    d (ikPyFile r.name) = some "def a".toList ∧ after (toy []) d { r with kill := none } (ikPyFile r.name) = some "def a".toList ∧
    after (toy []) d r (ikPyFile r.name) = some [] := by
  refine ⟨after (toy []) emptyDisk ⟨true, "Puma".toList, ['a'], none⟩, ⟨true, "Puma".toList, ['a'], some (4, 0)⟩, ?_, ?_, ?_⟩ <;> decide +kernel

/-- **C85 violated.** If the first run is killed after it has written the pickle, the next run does not write the same program as an undisturbed first run:
the parameters that the forward kinematics adds are missing. -/
theorem C85_rerun_violation : ∃ (r : Run Text),
    after (toy ['c']) emptyDisk { r with kill := none } (ikPyFile r.name) = some "def ac".toList ∧
    after (toy ['c']) (after (toy ['c']) emptyDisk r) { r with kill := none } (ikPyFile r.name) = some "def a".toList := by
  refine ⟨⟨true, "Puma".toList, ['a'], some (3, 0)⟩, ?_, ?_⟩ <;> decide +kernel

/-- **C85 violated.** After a kill while the pickle is written the same command never writes anything again. -/
theorem C85_damaged_pickle_violation : ∃ (r : Run Text),
    after (toy []) emptyDisk { r with kill := none } (ikPyFile r.name) = some "def a".toList ∧
    after (toy []) (after (toy []) emptyDisk r) { r with kill := none } (ikPyFile r.name) = none := by
  refine ⟨⟨true, "Puma".toList, ['a'], some (2, 1)⟩, ?_, ?_⟩ <;> decide +kernel

/-- **C85 violated.** Robots whose names differ in the text `test: ` only (both can be passed to the output functions) share their programs, but not their pickles. -/
theorem C85_test_name_violation : ∃ (r r' : Run Text), r.name ≠ r'.name ∧ pickleFile r.name ≠ pickleFile r'.name ∧
    after (toy []) emptyDisk r (ikPyFile r.name) = some "def a".toList ∧
    after (toy []) (after (toy []) emptyDisk r) r' (ikPyFile r.name) = some "def b".toList := by
  refine ⟨⟨true, "Wrist".toList, ['a'], none⟩, ⟨true, "test: Wrist".toList, ['b'], none⟩, ?_, ?_, ?_, ?_⟩ <;> decide +kernel

end Verif.Main.Disk
