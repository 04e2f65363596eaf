import Verif.Out.RobotTable
/-!
# C49: the robots offered by name
-/
namespace Verif.Out

/-- all symbols of a DH table -/
def symbolsOf (dh : List (List Cell)) : List String := dh.flatten.filterMap Cell.name?

/-- What a user expects of a robot description: six rows of four entries; the joint variables are numbered 1, 2, … and variable `n` is
in row `n`, in the theta column if the joint is a rotation and in the d column if it is a translation, and nowhere else; every other
symbol of the table is a declared parameter with a value; names are not used twice. -/
def Sane (d : Desc) : Prop :=
  (d.dh.length = 6 ∧ ∀ r ∈ d.dh, r.length = 4) ∧
  (d.vars.map (·.2) = List.range' 1 d.vars.length ∧ d.vars.length ≤ 6) ∧
  (∀ v ∈ d.vars, (do let r ← d.dh[v.2 - 1]?; let t ← d.vv[v.2 - 1]?; let c ← r[if t = 1 then 3 else 2]?; c.name?) = some v.1 ∧
    (symbolsOf d.dh).count v.1 = 1) ∧
  ((d.vars.map (·.1)).Nodup ∧ d.params.Nodup ∧ d.pvals.Perm d.params ∧ ∀ p ∈ d.params, p ∉ d.vars.map (·.1))

instance (d : Desc) : Decidable (Sane d) := by unfold Sane; infer_instance

/-- every symbol of the table is a joint variable or a parameter -/
def Declared (d : Desc) : Prop := ∀ s ∈ symbolsOf d.dh, s ∈ d.vars.map (·.1) ∨ s ∈ d.params
instance (d : Desc) : Decidable (Declared d) := by unfold Declared; infer_instance

/-- one joint type for each row, 0 or 1 -/
def JointTypes (d : Desc) : Prop := d.vv.length = 6 ∧ ∀ t ∈ d.vv, t = 0 ∨ t = 1
instance (d : Desc) : Decidable (JointTypes d) := by unfold JointTypes; infer_instance

def isOk : RP → Option Desc
  | .ok d => some d
  | _ => none

theorem robotParams_mem {o : List String} {bs : List Block} {name : String} (h : name ∉ o) : robotParams o bs name = .quit := by
  simp [robotParams, h]

theorem table_ok : ∀ name ∈ offered, name ≠ "Chair6DOF" → name ≠ "Issue4DZhang" →
    ∃ b ∈ blocks, b.name = name ∧ ∃ d, robotParams offered blocks name = .ok d ∧ d.dh = b.dh ∧ Sane d ∧
      (Declared d ∨ name = "Mackler13") ∧ (JointTypes d ∨ name = "MiniDD" ∨ name = "Sims11") ∧
      (∃ i, maxIndex d.dh = .ok i ∧ d.vars.length ≤ i + 1) := by
  have key : ∀ name ∈ offered, name ≠ "Chair6DOF" → name ≠ "Issue4DZhang" →
      ∃ b ∈ blocks, b.name = name ∧ ∃ d ∈ isOk (robotParams offered blocks name), d.dh = b.dh ∧ Sane d ∧
      (Declared d ∨ name = "Mackler13") ∧ (JointTypes d ∨ name = "MiniDD" ∨ name = "Sims11") ∧
      (∃ i ∈ (maxIndex d.dh).toOption, d.vars.length ≤ i + 1) := by
    decide +kernel
  intro name h h1 h2
  obtain ⟨b, hb, hn, d, hd, hdh, hs, hp, hj, i, hi, hl⟩ := key name h h1 h2
  refine ⟨b, hb, hn, d, ?_, hdh, hs, hp, hj, i, ?_, hl⟩
  · cases hr : robotParams offered blocks name <;> simp_all [isOk]
  · cases hm : maxIndex d.dh <;> simp_all [Except.toOption]

/-- **C49 (partial).** For every name whatsoever: a name that is not offered is refused; an offered name, except two, gives the
description of the block with that name, which is sane, passes the assertions of `Robot.__init__`, and, except for one robot, has only
declared symbols and, except for two, one joint type per row. Missing: those five robots (see the violations below). -/
theorem C49_names_partial (name : String) :
    (name ∉ offered → robotParams offered blocks name = .quit) ∧
    (name ∈ offered → name ≠ "Chair6DOF" → name ≠ "Issue4DZhang" →
      ∃ b ∈ blocks, b.name = name ∧ ∃ d, robotParams offered blocks name = .ok d ∧ d.dh = b.dh ∧ Sane d ∧
        (Declared d ∨ name = "Mackler13") ∧ (JointTypes d ∨ name = "MiniDD" ∨ name = "Sims11") ∧
        (∃ i, maxIndex d.dh = .ok i ∧ d.vars.length ≤ i + 1)) :=
  ⟨robotParams_mem, table_ok name⟩

/-- the hypothesis is met: the Puma has its table, six joints and six joint types -/
example : "Puma" ∈ offered ∧ ∃ d, robotParams offered blocks "Puma" = .ok d ∧ d.vars.map (·.1) =
    ["th_1", "th_2", "th_3", "th_4", "th_5", "th_6"] ∧ Declared d ∧ JointTypes d := by
  obtain ⟨d, hd, h⟩ : ∃ d ∈ isOk (robotParams offered blocks "Puma"), d.vars.map (·.1) =
    ["th_1", "th_2", "th_3", "th_4", "th_5", "th_6"] ∧ Declared d ∧ JointTypes d := by decide +kernel
  refine ⟨by decide +kernel, d, ?_, h⟩
  cases hr : robotParams offered blocks "Puma" <;> simp_all [isOk]

/-- **C49 violated.** Two offered names have no definition: the call crashes. -/
theorem C49_undefined_violation : ∀ name ∈ ["Chair6DOF", "Issue4DZhang"], name ∈ offered ∧
    robotParams offered blocks name = .crash "UnboundLocalError: variables" := by
  decide +kernel

/-- **C49 violated.** A defined robot is refused: the comma before its name is missing (ik_robots.py:56-57). -/
theorem C49_refused_violation : (∃ b ∈ blocks, b.name = "DZhang") ∧ robotParams offered blocks "DZhang" = .quit := by
  decide +kernel

/-- DZhang is the only one: every other block can be reached. -/
theorem C49_reachable : ∀ b ∈ blocks, b.name ≠ "DZhang" → b.name ∈ offered := by decide +kernel

/-- **C49 violated.** The joint types of MiniDD end before the sixth row, so that its forward kinematics crashes. -/
theorem C49_minidd_violation : ∃ d ∈ isOk (robotParams offered blocks "MiniDD"),
    (readsVv d.vv).toOption = none := by
  decide +kernel

/-- For all other accepted names the velocity recursion finds its six joint types. -/
theorem C49_velocity_reads (name : String) (d : Desc) (h : robotParams offered blocks name = .ok d) (hn : name ≠ "MiniDD") :
    ∃ l, readsVv d.vv = .ok l := by
  have key : ∀ name ∈ offered, name ≠ "MiniDD" → ∀ d ∈ isOk (robotParams offered blocks name), (readsVv d.vv).toOption ≠ none := by
    decide +kernel
  have hm : name ∈ offered := Decidable.byContradiction fun hm => by rw [robotParams_mem hm] at h; cases h
  have := key name hm hn d (by simp [h, isOk])
  cases hv : readsVv d.vv with
  | ok l => exact ⟨l, rfl⟩
  | error e => simp [hv, Except.toOption] at this

/-- **C49 violated.** Mackler13 uses a length `h` that is neither a variable nor a parameter, and has no value. -/
theorem C49_undeclared_violation : ∃ d ∈ isOk (robotParams offered blocks "Mackler13"),
    "h" ∈ symbolsOf d.dh ∧ "h" ∉ d.vars.map (·.1) ∧ "h" ∉ d.params ∧ "h" ∉ d.pvals := by
  decide +kernel

/-- Every robot is defined by one block only, so the description is that of *the* block with the name. -/
theorem C49_defined_once : (blocks.map (·.name)).Nodup := by decide +kernel

/-- row `i` of a DH table has an offset or an angle -/
def RowUsed (dh : List (List Cell)) (i : Nat) : Prop :=
  ∃ a b d th, dh[i]? = some [a, b, d, th] ∧ (d ≠ .zero ∨ th ≠ .zero)

/-- **C49, length of the chain.** The chain found by `Robot.__init__` ends at the last row (of the first six) that has an offset or an angle;
a table is accepted exactly when the first row and another one have. -/
theorem C49_last_joint (dh : List (List Cell)) :
    (∀ i, maxIndex dh = .ok i ↔ RowUsed dh 0 ∧ 1 ≤ i ∧ i ≤ 5 ∧ RowUsed dh i ∧ ∀ j, i < j → j ≤ 5 → ¬ RowUsed dh j) ∧
    ((∃ i, maxIndex dh = .ok i) ↔ RowUsed dh 0 ∧ ∃ i, 1 ≤ i ∧ i ≤ 5 ∧ RowUsed dh i) := by
  let used : Nat → Bool := fun i => match dh[i]? with
    | some [_, _, d, th] => d != .zero || th != .zero
    | _ => false
  have hu : ∀ i, used i = true ↔ RowUsed dh i := by
    intro i
    simp only [used, RowUsed]
    split
    · rename_i a b d th h
      simp only [Bool.or_eq_true, bne_iff_ne, ne_eq]
      constructor
      · intro h'; exact ⟨a, b, d, th, h, h'⟩
      · rintro ⟨a', b', d', th', h1, h2⟩
        rw [h] at h1; cases h1; exact h2
    · rename_i h
      constructor
      · intro h; cases h
      · rintro ⟨a, b, d, th, h1, -⟩
        exact absurd h1 (h a b d th)
  have hmax : maxIndex dh = if used 0 then match [5, 4, 3, 2, 1].find? used with
      | some i => .ok i
      | none => .error "AssertionError: Couldn't find mechanism index"
    else .error "AssertionError: You do not have a variable in first DH row!" := rfl
  have h1 : ∀ i, maxIndex dh = .ok i ↔ RowUsed dh 0 ∧ 1 ≤ i ∧ i ≤ 5 ∧ RowUsed dh i ∧ ∀ j, i < j → j ≤ 5 → ¬ RowUsed dh j := by
    intro i
    rw [hmax]
    simp only [← hu]
    generalize used = f
    by_cases h0 : f 0 = true
    · rw [if_pos h0]
      simp only [List.find?, h0, true_and]
      constructor
      · intro h
        split at h <;> simp only [Except.ok.injEq, reduceCtorEq] at h
        rename_i k hk
        subst h
        split at hk
        · cases hk; exact ⟨by omega, by omega, ‹_›, fun j a b => by omega⟩
        split at hk
        · cases hk; exact ⟨by omega, by omega, ‹_›, fun j a b => by
            have h5 : j = 5 := by omega
            subst h5; simp [*]⟩
        split at hk
        · cases hk; exact ⟨by omega, by omega, ‹_›, fun j a b => by
            obtain rfl | rfl : j = 5 ∨ j = 4 := by omega
            all_goals simp [*]⟩
        split at hk
        · cases hk; exact ⟨by omega, by omega, ‹_›, fun j a b => by
            obtain rfl | rfl | rfl : j = 5 ∨ j = 4 ∨ j = 3 := by omega
            all_goals simp [*]⟩
        split at hk
        · cases hk; exact ⟨by omega, by omega, ‹_›, fun j a b => by
            obtain rfl | rfl | rfl | rfl : j = 5 ∨ j = 4 ∨ j = 3 ∨ j = 2 := by omega
            all_goals simp [*]⟩
        · cases hk
      · rintro ⟨h1, h2, h3, h4⟩
        have g : ∀ j, i < j → j ≤ 5 → f j = false := fun j a b => by simpa using h4 j a b
        obtain rfl | rfl | rfl | rfl | rfl : i = 1 ∨ i = 2 ∨ i = 3 ∨ i = 4 ∨ i = 5 := by omega
        · simp [g 5, g 4, g 3, g 2, h3]
        · simp [g 5, g 4, g 3, h3]
        · simp [g 5, g 4, h3]
        · simp [g 5, h3]
        · simp [h3]
    · rw [if_neg h0]
      simp [h0]
  refine ⟨h1, ?_⟩
  constructor
  · rintro ⟨i, hi⟩
    obtain ⟨a, b, c, d, -⟩ := (h1 i).1 hi
    exact ⟨a, i, b, c, d⟩
  · rintro ⟨h0, i, hi1, hi2, hi3⟩
    -- the last used row
    have : ∃ k, 1 ≤ k ∧ k ≤ 5 ∧ RowUsed dh k ∧ ∀ j, k < j → j ≤ 5 → ¬ RowUsed dh j := by
      have key : ∀ n k, 5 - k = n → 1 ≤ k → k ≤ 5 → RowUsed dh k →
          ∃ k, 1 ≤ k ∧ k ≤ 5 ∧ RowUsed dh k ∧ ∀ j, k < j → j ≤ 5 → ¬ RowUsed dh j := by
        intro n
        induction n using Nat.strongRecOn with
        | _ n ih =>
          intro k hn a b c
          by_cases hj : ∃ j, k < j ∧ j ≤ 5 ∧ RowUsed dh j
          · obtain ⟨j, j1, j2, j3⟩ := hj
            exact ih (5 - j) (by omega) j rfl (by omega) j2 j3
          · exact ⟨k, a, b, c, fun j j1 j2 j3 => hj ⟨j, j1, j2, j3⟩⟩
      exact key _ i rfl hi1 hi2 hi3
    obtain ⟨k, a, b, c, d⟩ := this
    exact ⟨k, (h1 k).2 ⟨h0, a, b, c, d⟩⟩

/-- the Puma's chain ends at row 5, that of the three-joint arm at row 2 -/
example : (isOk (robotParams offered blocks "Puma")).map (fun d => (maxIndex d.dh).toOption) = some (some 5) ∧
    (isOk (robotParams offered blocks "Arm_3")).map (fun d => (maxIndex d.dh).toOption) = some (some 2) := by decide +kernel

/-- **C49 violated.** A mechanism with one joint is refused. -/
theorem C49_one_joint_violation : (maxIndex ([.zero, .zero, .zero, .sym "th_1"] :: List.replicate 5 [.zero, .zero, .zero, .zero])).toOption =
    none := by decide +kernel

end Verif.Out
