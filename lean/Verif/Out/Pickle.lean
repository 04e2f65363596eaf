/-!
# C48: the stored forward kinematics

Model of `kinematics_pickle` and `check_the_pickle` (ikbtbasics/ik_classes.py:66-135) and of the lines of ikSolver.py that use them
(98-117, the same in fkOnly.py:103-121 and forward_kin2.py:86-99).

What the kinematics are computed to is a parameter (`Fk`): the theorems hold for every such function. A file holds either a complete
pickle or, after a crash while it was written, an incomplete one, which `pickle.load` refuses with an exception.
-/
namespace Verif.Out

/-- a robot description, as passed to `kinematics_pickle`: DH table (rows of four entries), parameters, values, joint types, unknowns -/
structure RobotDesc (C S : Type) where
  dh : List (Fin 4 → C)
  params : List S
  pvals : List (S × String)
  vv : List Nat
  unks : List S

/-- What the symbolic computations give. -/
structure Fk (C S K U : Type) where
  /-- the parameters `ca1, sa1, …` that `forward_kinematics` appends to the caller's parameter list (kin_cl.py:284-296) -/
  extra : List (Fin 4 → C) → List S
  /-- `forward_kinematics` (kin_cl.py:269-454): all the matrices, from the DH table, and the Jacobian, which depends on `vv` -/
  kin : List (Fin 4 → C) → K
  jac : List (Fin 4 → C) → List Nat → K
  /-- `Robot(...)`, `scan_for_equations`, `sum_of_angles_transform` (ik_classes.py:106-110): equations and the final list of unknowns -/
  scan : List (Fin 4 → C) → List S → U

/-- the objects `[m, R, unknowns]` -/
structure Kinematics (C S K U : Type) where
  /-- `m.DH`, `m.params`, `m.vv` -/
  dh : List (Fin 4 → C)
  mparams : List S
  mvv : List Nat
  kin : K
  jac : K
  eqns : U

/-- a file under fk_eqns/ -/
inductive File (C S K U : Type) where
  | whole (k : Kinematics C S K U)
  | torn

/-- how a run ends -/
inductive Ending (C S K U : Type) where
  /-- the objects, and the list that becomes `R.params` (ikSolver.py:113) -/
  | ok (k : Kinematics C S K U) (params : List S)
  /-- `quit()` in `check_the_pickle` -/
  | stopped
  /-- an exception in `pickle.load` -/
  | unreadable
  /-- the process was killed while the pickle was written -/
  | killed

variable {C S K U : Type}

abbrev Files (C S K U : Type) := String → Option (File C S K U)

def Files.set (fs : Files C S K U) (n : String) (f : File C S K U) : Files C S K U := fun m => if m = n then some f else fs m

/-- ik_classes.py:92-110: the computation for a robot without file. `m.params` is the caller's list, which was appended to. -/
def computed (F : Fk C S K U) (d : RobotDesc C S) : Kinematics C S K U :=
  { dh := d.dh, mparams := d.params ++ F.extra d.dh, mvv := d.vv, kin := F.kin d.dh, jac := F.jac d.dh d.vv,
    eqns := F.scan d.dh d.unks }

/-- ik_classes.py:118-135: `true` if the program goes on: same number of rows, and no entry of columns 0 to 3 differs -/
def checkThePickle [DecidableEq C] (dh1 dh2 : List (Fin 4 → C)) : Bool :=
  dh1.length == dh2.length && (dh1.zip dh2).all fun p => [0, 1, 2, 3].all fun c => p.1 c == p.2 c

/-- One run of the program up to `check_the_pickle`: ikSolver.py:98-117 with ik_classes.py:66-115. `crash`: whether the process dies
while the pickle is written (after `open(name,'wb')`, ik_classes.py:111-112). -/
def run [DecidableEq C] (F : Fk C S K U) (fs : Files C S K U) (name : String) (d : RobotDesc C S) (crash : Bool) :
    Files C S K U × Ending C S K U :=
  match fs name with
  | some .torn => (fs, .unreadable)
  | some (.whole k) => if checkThePickle k.dh d.dh then (fs, .ok k d.params) else (fs, .stopped)
  | none =>
    if crash then (fs.set name .torn, .killed)
    else
      let k := computed F d
      let fs' := fs.set name (.whole k)
      if checkThePickle k.dh d.dh then (fs', .ok k k.mparams) else (fs', .stopped)

/-- a history of runs: name, description, crash -/
def runs [DecidableEq C] (F : Fk C S K U) (fs : Files C S K U) : List (String × RobotDesc C S × Bool) → Files C S K U
  | [] => fs
  | (n, d, c) :: rest => runs F (run F fs n d c).1 rest

/-- no file yet -/
def noFiles : Files C S K U := fun _ => none

/-! ## Proofs -/

theorem check_eq [DecidableEq C] (a b : List (Fin 4 → C)) : checkThePickle a b = true ↔ a = b := by
  induction a generalizing b with
  | nil => cases b <;> simp [checkThePickle]
  | cons x a ih =>
    cases b with
    | nil => simp [checkThePickle]
    | cons y b =>
      have := ih b
      simp only [checkThePickle, List.all_cons, List.all_nil, Bool.and_eq_true, Bool.and_true, beq_iff_eq] at this
      simp only [checkThePickle, List.length_cons, List.zip_cons_cons, List.all_cons, List.all_nil, Bool.and_eq_true, Bool.and_true,
        beq_iff_eq, Nat.add_right_cancel_iff, List.cons.injEq]
      rw [← this]
      constructor
      · rintro ⟨h1, ⟨h2, h3, h4, h5⟩, h6⟩
        refine ⟨funext fun i => ?_, h1, h6⟩
        match i with
        | 0 => exact h2
        | 1 => exact h3
        | 2 => exact h4
        | 3 => exact h5
      · rintro ⟨rfl, h1, h6⟩
        exact ⟨h1, ⟨rfl, rfl, rfl, rfl⟩, h6⟩

/-- every whole file was computed from some description that was passed in under that name -/
def Honest (F : Fk C S K U) (hist : List (String × RobotDesc C S × Bool)) (fs : Files C S K U) : Prop :=
  ∀ n k, fs n = some (.whole k) → ∃ d c, (n, d, c) ∈ hist ∧ k = computed F d

theorem run_honest [DecidableEq C] {F : Fk C S K U} {hist fs} (h : Honest F hist fs) (n : String) (d : RobotDesc C S) (c : Bool) :
    Honest F (hist ++ [(n, d, c)]) (run F fs n d c).1 := by
  have h' : Honest F (hist ++ [(n, d, c)]) fs := fun m k hk => by
    obtain ⟨d', c', hm, he⟩ := h m k hk
    exact ⟨d', c', List.mem_append_left _ hm, he⟩
  unfold run
  split
  · exact h'
  · split <;> exact h'
  · split
    · intro m k hk
      simp only [Files.set] at hk; split at hk
      · cases hk
      · exact h' m k hk
    · have : Honest F (hist ++ [(n, d, c)]) (fs.set n (.whole (computed F d))) := by
        intro m k hk
        simp only [Files.set] at hk; split at hk
        · rename_i hm; subst hm; cases hk; exact ⟨d, c, by simp, rfl⟩
        · exact h' m k hk
      simp only []
      split <;> exact this

theorem runs_honest [DecidableEq C] {F : Fk C S K U} {hist fs} (h : Honest F hist fs) (rest) :
    Honest F (hist ++ rest) (runs F fs rest) := by
  induction rest generalizing hist fs with
  | nil => simpa [runs] using h
  | cons r rest ih =>
    obtain ⟨n, d, c⟩ := r
    have := ih (run_honest h n d c)
    simpa [runs] using this

/-- **C48 (partial).** After any history of runs, with any robot descriptions under any names and any crashes, a run that returns,
returns the kinematics of the DH table passed in (which is also the DH table of the mechanism), and all it returns was computed from a
description with this same DH table, passed in now or earlier under the same name. Missing: joint types, unknowns and parameters are
not compared (violations below). -/
theorem C48_kinematics_partial [DecidableEq C] (F : Fk C S K U) (hist : List (String × RobotDesc C S × Bool))
    (n : String) (d : RobotDesc C S) (crash : Bool) (k : Kinematics C S K U) (ps : List S)
    (h : (run F (runs F noFiles hist) n d crash).2 = .ok k ps) :
    k.dh = d.dh ∧ k.kin = F.kin d.dh ∧
    ∃ d', (d' = d ∨ ∃ c, (n, d', c) ∈ hist) ∧ d'.dh = d.dh ∧ k = computed F d' := by
  have hh := runs_honest (F := F) (hist := []) (fs := noFiles) (by intro n k hk; cases hk) hist
  simp only [List.nil_append] at hh
  generalize runs F noFiles hist = fs at h hh
  unfold run at h
  split at h
  · cases h
  · rename_i k' hk
    split at h
    · rename_i hc
      simp only [Ending.ok.injEq] at h
      obtain ⟨rfl, rfl⟩ := h
      obtain ⟨d', c, hm, rfl⟩ := hh _ _ hk
      have e := (check_eq _ _).1 hc
      exact ⟨e, congrArg F.kin e, d', .inr ⟨c, hm⟩, e, rfl⟩
    · cases h
  · split at h
    · cases h
    · simp only [] at h
      split at h
      · simp only [Ending.ok.injEq] at h
        obtain ⟨rfl, _⟩ := h
        exact ⟨rfl, rfl, d, .inl rfl, rfl, rfl⟩
      · cases h

/-- If all descriptions used under the name are the same, everything returned is what a first run returns, except `R.params`. -/
theorem C48_same_description [DecidableEq C] (F : Fk C S K U) (hist : List (String × RobotDesc C S × Bool))
    (n : String) (d : RobotDesc C S) (crash : Bool) (k : Kinematics C S K U) (ps : List S)
    (hs : ∀ d' c, (n, d', c) ∈ hist → d' = d)
    (h : (run F (runs F noFiles hist) n d crash).2 = .ok k ps) : k = computed F d := by
  obtain ⟨_, _, d', hd, _, hk⟩ := C48_kinematics_partial F hist n d crash k ps h
  rcases hd with rfl | ⟨c, hm⟩
  · exact hk
  · rw [← hs d' c hm]; exact hk

/-- A first run without crash does return: the hypothesis of the two theorems is met for every description. -/
example [DecidableEq C] (F : Fk C S K U) (n : String) (d : RobotDesc C S) :
    (run F (runs F noFiles []) n d false).2 = .ok (computed F d) (d.params ++ F.extra d.dh) := by
  have : checkThePickle d.dh d.dh = true := (check_eq _ _).2 rfl
  simp [run, runs, noFiles, computed, this]

/-- A changed DH table is noticed: the run stops. -/
theorem C48_changed_table [DecidableEq C] (F : Fk C S K U) (n : String) (d d' : RobotDesc C S) (crash : Bool) (h : d.dh ≠ d'.dh) :
    (run F (runs F noFiles [(n, d, false)]) n d' crash).2 = .stopped := by
  have h1 : checkThePickle d.dh d.dh = true := (check_eq _ _).2 rfl
  have h2 : checkThePickle d.dh d'.dh = false := by
    rw [← Bool.not_eq_true, check_eq]; exact h
  simp [run, runs, noFiles, computed, h1, h2, Files.set]

/-- **C48 violated.** Changed joint types are not noticed: the second run returns the Jacobian of the first description. -/
theorem C48_joint_type_violation : ∃ (F : Fk Nat String (List Nat) Unit) (d d' : RobotDesc Nat String) (k : _) (ps : _),
    (run F (runs F noFiles [("r", d, false)]) "r" d' false).2 = .ok k ps ∧ k.jac = F.jac d.dh d.vv ∧ k.jac ≠ F.jac d'.dh d'.vv := by
  let F : Fk Nat String (List Nat) Unit := ⟨fun _ => [], fun _ => [], fun _ v => v, fun _ _ => ()⟩
  let d : RobotDesc Nat String := ⟨[fun _ => 0], [], [], [1], []⟩
  let d' : RobotDesc Nat String := ⟨[fun _ => 0], [], [], [0], []⟩
  exact ⟨F, d, d', computed F d, [], rfl, rfl, by decide⟩

/-- **C48 violated.** The same description twice: the second run does not return the parameters that the kinematics are written with,
because `forward_kinematics`, which appends them to the caller's list, does not run again. -/
theorem C48_lost_parameter_violation [DecidableEq C] (F : Fk C S K U) (n : String) (d : RobotDesc C S) (h : F.extra d.dh ≠ []) :
    ∃ k ps ps', (run F noFiles n d false).2 = .ok k ps ∧ (run F (runs F noFiles [(n, d, false)]) n d false).2 = .ok k ps' ∧
      ps = k.mparams ∧ ps' ≠ k.mparams := by
  have h1 : checkThePickle d.dh d.dh = true := (check_eq _ _).2 rfl
  refine ⟨computed F d, d.params ++ F.extra d.dh, d.params, ?_, ?_, rfl, ?_⟩
  · simp [run, noFiles, computed, h1]
  · simp [run, runs, noFiles, computed, h1, Files.set]
  · simpa [computed] using h

/-- Without such parameters (all link twists are multiples of 90 degrees) the second run returns what the first did. -/
theorem C48_idempotent [DecidableEq C] (F : Fk C S K U) (n : String) (d : RobotDesc C S) (h : F.extra d.dh = []) (crash : Bool) :
    (run F (runs F noFiles [(n, d, false)]) n d crash).2 = (run F noFiles n d false).2 := by
  have h1 : checkThePickle d.dh d.dh = true := (check_eq _ _).2 rfl
  simp [run, runs, noFiles, computed, h1, Files.set, h]

/-- **C48 violated.** After a crash while the file is written, no later run with that name ever returns. -/
theorem C48_crash_violation [DecidableEq C] (F : Fk C S K U) (n : String) (d : RobotDesc C S)
    (hist : List (String × RobotDesc C S × Bool)) (d' : RobotDesc C S) (crash : Bool) :
    (run F (runs F noFiles ((n, d, true) :: hist)) n d' crash).2 = .unreadable := by
  have key : ∀ (hist : List (String × RobotDesc C S × Bool)) (fs : Files C S K U), fs n = some .torn → runs F fs hist n = some .torn := by
    intro hist
    induction hist with
    | nil => intro fs h; exact h
    | cons r rest ih =>
      obtain ⟨m, e, c⟩ := r
      intro fs h
      refine ih _ ?_
      by_cases hm : m = n
      · subst hm; simp [run, h]
      · unfold run; split
        · exact h
        · split <;> exact h
        · split
          · simpa [Files.set, Ne.symm hm] using h
          · simp only []; split <;> simpa [Files.set, Ne.symm hm] using h
  have := key hist (run F noFiles n d true).1 (by simp [run, noFiles, Files.set])
  rw [runs]
  generalize runs F (run F noFiles n d true).1 hist = fs at this
  simp [run, this]

end Verif.Out
