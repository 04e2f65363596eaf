import Verif.Main.Disk

/-!
# C85: lemmas

A run is a list of files to be written (`plan`), which is played until the process is killed (`play`).
-/
namespace Verif.Main.Disk
open Verif.Out

variable {D K S : Type}

/-! ## The names of the files -/

theorem latexName_tex (t : Text) : latexName (t ++ ".tex".toList) = t ++ ".tex".toList := by
  have h : ".tex.tex".toList.isSuffixOf (t ++ ".tex".toList ++ ".tex".toList) = true := by
    rw [List.isSuffixOf_iff_suffix]
    exact ⟨t, by simp⟩
  unfold latexName
  simp only [h, if_true]
  have : (t ++ ".tex".toList ++ ".tex".toList).length - 4 = (t ++ ".tex".toList).length := by simp
  rw [this, List.take_left']
  rfl

theorem ikTexFile_eq (n : Text) : ikTexFile n = "LaTex/ik_solution_".toList ++ dropTest n ++ ".tex".toList := latexName_tex _
theorem fkTexFile_eq (n : Text) : fkTexFile n = "LaTex/fk_equations_".toList ++ dropTest n ++ ".tex".toList := latexName_tex _

/-- (proof) Different beginnings. -/
theorem ne_of_take {a b : Text} (k : Nat) (h : a.take k ≠ b.take k) : a ≠ b := fun e => h (by rw [e])

section
variable (n : Text)
theorem take_pickle : (pickleFile n).take 8 = "fk_eqns/".toList := rfl
theorem take_ikTex : (ikTexFile n).take 8 = "LaTex/ik".toList := by rw [ikTexFile_eq]; rfl
theorem take_fkTex : (fkTexFile n).take 8 = "LaTex/fk".toList := by rw [fkTexFile_eq]; rfl
theorem take_ikPy : (ikPyFile n).take 16 = "CodeGen/Python/I".toList := rfl
theorem take_fkPy : (fkPyFile n).take 16 = "CodeGen/Python/F".toList := rfl
theorem take_cpp : (cppFile n).take 16 = "CodeGen/Cpp/IK_e".toList := rfl
theorem take_ikPy8 : (ikPyFile n).take 8 = "CodeGen/".toList := rfl
theorem take_fkPy8 : (fkPyFile n).take 8 = "CodeGen/".toList := rfl
theorem take_cpp8 : (cppFile n).take 8 = "CodeGen/".toList := rfl
theorem take_pre : preambleFile.take 8 = "LaTex/IK".toList := rfl
theorem take_close : closeFile.take 8 = "LaTex/IK".toList := rfl
end

/-! ## Plans -/

/-- (proof) the files to be written after `kinematics`, in order -/
def rest (P : Prog D K S) (d : Disk) (solver : Bool) (n : Text) (k : K) (e : D) : List (Path × Text × Bool) :=
  if P.same k e then
    if solver then
      match P.solve k e with
      | none => []
      | some r => match d preambleFile, d closeFile with
        | some a, some b => match P.tex r a b with
          | some t => [(ikTexFile n, t, false), (ikPyFile n, P.py r), (cppFile n, P.cpp r)]
          | none => []
        | _, _ => []
    else
      (fkPyFile n, P.fkpy k e) :: match d preambleFile, d closeFile with
        | some a, some b => match P.fktex k e a b with
          | some t => [(fkTexFile n, t, false)]
          | none => []
        | _, _ => []
  else []

/-- (proof) the files to be written -/
def plan (P : Prog D K S) (d : Disk) (solver : Bool) (n : Text) (e : D) : List (Path × Text × Bool) :=
  match d (pickleFile n) with
  | some t => match P.load t with
    | none => []
    | some k => rest P d solver n k e
  | none => (pickleFile n, P.dump (P.fk e), false) :: rest P d solver n (P.fk e) (P.grown e)

/-- (proof) the disk after the files of a plan have been written, up to the kill -/
def play (lost : Nat) : List (Path × Text × Bool) → Option Nat → Disk → Disk
  | [], _, d => d
  | (p, t, b) :: l, none, d => if b then d.set p t else play lost l none (d.set p t)
  | _ :: _, some 0, d => d
  | (p, _, _) :: _, some 1, d => d.set p []
  | (p, t, _) :: _, some 2, d => d.set p (t.take (t.length - lost))
  | (p, t, b) :: l, some (k + 3), d => if b then d.set p t else play lost l (some k) (d.set p t)

theorem set_get (d : Disk) (p : Path) (t : Text) : d.set p t p = some t := by simp [Disk.set]
theorem set_other (d : Disk) {p q : Path} (t : Text) (h : q ≠ p) : d.set p t q = d q := by simp [Disk.set, h]
theorem set_set (d : Disk) (p : Path) (t u : Text) : (d.set p t).set p u = d.set p u := by
  funext q; by_cases h : q = p <;> simp [Disk.set, h]

/-- (proof) Writing a file, and what comes after it. -/
theorem fin_save {α : Type} (lost : Nat) (p : Path) (t : Text × Bool) (d : Disk) (left : Option Nat) (k : Unit → Proc → R α)
    (f : Option Nat → Disk → Disk) (hk : ∀ d' l', d' = d.set p t.1 → fin lost (k () ⟨d', none, l'⟩) = f l' d') :
    fin lost ((save p t ⟨d, none, left⟩).andThen k) = match left with
      | none => if t.2 then d.set p t.1 else f none (d.set p t.1)
      | some 0 => d
      | some 1 => d.set p []
      | some 2 => d.set p (t.1.take (t.1.length - lost))
      | some (k + 3) => if t.2 then d.set p t.1 else f (some k) (d.set p t.1) := by
  obtain ⟨t, b⟩ := t
  have hw : (d.set p []).set p (((d.set p []) p).getD [] ++ t) = d.set p t := by
    rw [set_get, set_set]; rfl
  match left with
  | none =>
    cases b
    · have := hk (d.set p t) none rfl
      simp only [save, op, R.andThen, openW, write, close, hw, Bool.false_eq_true, if_false]
      exact this
    · simp only [save, op, R.andThen, openW, write, close, hw, if_true, fin]
  | some 0 => rfl
  | some 1 =>
    simp only [save, op, R.andThen, openW, fin]
    funext q
    by_cases h : q = p <;> simp [Disk.set, h]
  | some 2 =>
    simp only [save, op, R.andThen, openW, write, hw, fin]
    funext q
    by_cases h : q = p <;> simp [Disk.set, h]
  | some (j + 3) =>
    cases b
    · have := hk (d.set p t) (some j) rfl
      simp only [save, op, R.andThen, openW, write, close, hw, Bool.false_eq_true, if_false]
      exact this
    · simp only [save, op, R.andThen, openW, write, close, hw, if_true, fin]

/-- (proof) -/
theorem play_cons (lost : Nat) (p : Path) (t : Text × Bool) (l : List (Path × Text × Bool)) (left : Option Nat) (d : Disk) :
    play lost ((p, t) :: l) left d = match left with
      | none => if t.2 then d.set p t.1 else play lost l none (d.set p t.1)
      | some 0 => d
      | some 1 => d.set p []
      | some 2 => d.set p (t.1.take (t.1.length - lost))
      | some (k + 3) => if t.2 then d.set p t.1 else play lost l (some k) (d.set p t.1) := by
  obtain ⟨t, b⟩ := t
  match left with
  | none => rfl
  | some 0 => rfl
  | some 1 => rfl
  | some 2 => rfl
  | some (k + 3) => rfl

theorem ok_andThen {α β : Type} (s : Proc) (a : α) (k : α → Proc → R β) : R.andThen (s, .ok a) k = k a s := rfl

theorem andThen_ok (r : R Unit) : r.andThen (fun _ s => (s, .ok ())) = r := by
  obtain ⟨s, e⟩ := r
  cases e <;> rfl

theorem fin_save_play {α : Type} (lost : Nat) (p : Path) (t : Text × Bool) (d : Disk) (left : Option Nat) (k : Unit → Proc → R α)
    (l : List (Path × Text × Bool)) (hk : ∀ d' l', d' = d.set p t.1 → fin lost (k () ⟨d', none, l'⟩) = play lost l l' d') :
    fin lost ((save p t ⟨d, none, left⟩).andThen k) = play lost ((p, t) :: l) left d := by
  rw [fin_save lost p t d left k (fun l' d' => play lost l l' d') hk, play_cons]

theorem fin_save_last (lost : Nat) (p : Path) (t : Text × Bool) (d : Disk) (left : Option Nat) :
    fin lost (save p t ⟨d, none, left⟩) = play lost [(p, t)] left d := by
  rw [← andThen_ok (save p t ⟨d, none, left⟩)]
  exact fin_save_play lost p t d left _ [] (fun d' l' _ => rfl)

theorem pre_ne_pickle (n : Text) : preambleFile ≠ pickleFile n := ne_of_take 8 (by rw [take_pre, take_pickle]; decide)
theorem close_ne_pickle (n : Text) : closeFile ≠ pickleFile n := ne_of_take 8 (by rw [take_close, take_pickle]; decide)
theorem pre_ne_fkPy (n : Text) : preambleFile ≠ fkPyFile n := ne_of_take 8 (by rw [take_pre, take_fkPy8]; decide)
theorem close_ne_fkPy (n : Text) : closeFile ≠ fkPyFile n := ne_of_take 8 (by rw [take_close, take_fkPy8]; decide)

/-- (proof) Everything after `stored`. -/
def afterStored (P : Prog D K S) (solver : Bool) (n : Text) (kd : K × D) (s : Proc) : R Unit :=
  ((if P.same kd.1 kd.2 then (s, .ok kd) else (s, .error .quit) : R (K × D))).andThen fun kd s =>
    if solver then
      match P.solve kd.1 kd.2 with
      | none => (s, .error .raised)
      | some r => (report (ikTexFile n) (P.tex r) s).andThen fun _ s =>
          (save (ikPyFile n) (P.py r) s).andThen fun _ s => save (cppFile n) (P.cpp r) s
    else (save (fkPyFile n) (P.fkpy kd.1 kd.2) s).andThen fun _ s => report (fkTexFile n) (P.fktex kd.1 kd.2) s

theorem andThen_assoc {α β γ : Type} (r : R α) (f : α → Proc → R β) (g : β → Proc → R γ) :
    (r.andThen f).andThen g = r.andThen fun a s => (f a s).andThen g := by
  obtain ⟨s, e⟩ := r
  cases e <;> rfl

theorem program_eq (P : Prog D K S) (solver : Bool) (n : Text) (e : D) (s : Proc) :
    (if solver then ikSolver P n e else fkOnly P n e) s = (stored P n e s).andThen (afterStored P solver n) := by
  cases solver
  · simp only [Bool.false_eq_true, if_false, fkOnly, kinematics, andThen_assoc]; rfl
  · simp only [if_true, ikSolver, kinematics, andThen_assoc]; rfl

theorem fin_report (lost : Nat) (p : Path) (make : Text → Text → Option Text) (d : Disk) (left : Option Nat) :
    fin lost (report p make ⟨d, none, left⟩) = play lost (match d preambleFile, d closeFile with
      | some a, some b => match make a b with
        | some t => [(p, t, false)]
        | none => []
      | _, _ => []) left d := by
  simp only [report]
  cases h1 : d preambleFile <;> cases h2 : d closeFile
  · rfl
  · rfl
  · rfl
  · rename_i a b
    dsimp only
    cases h3 : make a b
    · rfl
    · exact fin_save_last lost p _ d left

theorem fin_afterStored (P : Prog D K S) (lost : Nat) (solver : Bool) (n : Text) (k : K) (e : D) (d : Disk) (left : Option Nat) :
    fin lost (afterStored P solver n (k, e) ⟨d, none, left⟩) = play lost (rest P d solver n k e) left d := by
  unfold afterStored rest
  by_cases hs : P.same k e = true
  · simp only [hs, if_true]
    cases solver
    · simp only [Bool.false_eq_true, if_false, ok_andThen]
      refine fin_save_play lost _ _ d left _ _ fun d' l' hd => ?_
      rw [fin_report]
      subst hd
      rw [set_other _ _ (pre_ne_fkPy n), set_other _ _ (close_ne_fkPy n)]
    · simp only [if_true, ok_andThen]
      cases hr : P.solve k e with
      | none => rfl
      | some r =>
        dsimp only
        simp only [report]
        cases h1 : d preambleFile <;> cases h2 : d closeFile
        · rfl
        · rfl
        · rfl
        · rename_i a b
          dsimp only
          cases h3 : P.tex r a b
          · rfl
          · rename_i t
            refine fin_save_play lost _ _ d left _ _ fun d' l' _ => ?_
            refine fin_save_play lost _ _ d' l' _ _ fun d'' l'' _ => ?_
            exact fin_save_last lost _ _ d'' l''
  · simp only [hs, Bool.false_eq_true, if_false]
    rfl

/-- A run is its plan, played. -/
theorem after_eq (P : Prog D K S) (d : Disk) (r : Run D) :
    after P d r = play ((r.kill.map (·.2)).getD 0) (plan P d r.solver r.name r.desc) (r.kill.map (·.1)) d := by
  have h0 : after P d r = fin ((r.kill.map (·.2)).getD 0)
      ((if r.solver then ikSolver P r.name r.desc else fkOnly P r.name r.desc) ⟨d, none, r.kill.map (·.1)⟩) := rfl
  rw [h0, program_eq]
  generalize (r.kill.map (·.2)).getD 0 = lost
  generalize r.kill.map (·.1) = left
  unfold stored plan
  cases hp : d (pickleFile r.name) with
  | some t =>
    simp only [hp]
    cases hl : P.load t with
    | none => rfl
    | some k => exact fin_afterStored P lost r.solver r.name k r.desc d left
  | none =>
    simp only [hp]
    rw [andThen_assoc]
    refine fin_save_play lost _ _ d left _ _ fun d' l' hd => ?_
    have h1 := fin_afterStored P lost r.solver r.name (P.fk r.desc) (P.grown r.desc) d' l'
    have h2 : rest P d' r.solver r.name (P.fk r.desc) (P.grown r.desc) = rest P d r.solver r.name (P.fk r.desc) (P.grown r.desc) := by
      subst hd
      unfold rest
      rw [set_other _ _ (pre_ne_pickle r.name), set_other _ _ (close_ne_pickle r.name)]
    rw [h2] at h1
    exact h1

end Verif.Main.Disk
