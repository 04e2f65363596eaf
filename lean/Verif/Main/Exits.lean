import Verif.Main.Props
/-
The two early exits of `Robot.__init__` (ik_classes.py:185, 190), exactly (C78).
-/
namespace Verif.Main
open Verif.Sym Verif.Eqn
open Verif.Kin (DHRow)
/-- C78, the early exits, exactly: the program stops at ik_classes.py:185 if and only if the first row has no variable, and at ik_classes.py:190 if and only
if it has one and no other row does. -/
theorem C78_first_row_iff (O : Ops) (dh : Fin 6 → DHRow) (vars : List Kin.Var) :
    (program O dh vars = .error .noFirstVariable ↔ (dh 0).d = .num 0 ∧ (dh 0).th = .num 0) ∧
    (program O dh vars = .error .noIndex ↔
      ¬((dh 0).d = .num 0 ∧ (dh 0).th = .num 0) ∧ ∀ i, i ≠ 0 → (dh i).d = .num 0 ∧ (dh i).th = .num 0) := by
  have hv : ∀ i, hasVariable (dh i) = false ↔ (dh i).d = .num 0 ∧ (dh i).th = .num 0 := fun i => by simp [hasVariable]
  have ha : (([5, 4, 3, 2, 1] : List (Fin 6)).any fun i => hasVariable (dh i)) = false ↔ ∀ i, i ≠ 0 → (dh i).d = .num 0 ∧ (dh i).th = .num 0 := by
    simp only [← hv]
    constructor
    · intro h i hi
      simp only [List.any_cons, List.any_nil, Bool.or_false, Bool.or_eq_false_iff] at h
      obtain ⟨h5, h4, h3, h2, h1⟩ := h
      fin_cases i <;> first | exact absurd rfl hi | assumption
    · intro h
      simp [h 1 (by decide), h 2 (by decide), h 3 (by decide), h 4 (by decide), h 5 (by decide)]
  rw [← hv 0, ← ha]
  simp only [program, prepare]
  cases h0 : hasVariable (dh 0)
  · simp
  · cases h1 : (([5, 4, 3, 2, 1] : List (Fin 6)).any fun i => hasVariable (dh i))
    · simp
    · simp only [Bool.not_true, Bool.false_eq_true, if_false]
      constructor <;> constructor <;> intro h
      · split at h
        · rename_i e he
          split at he <;> cases he
          cases h
        · split at h <;> cases h
      · cases h
      · split at h
        · rename_i e he
          split at he <;> cases he
          cases h
        · split at h <;> cases h
      · cases h.2

/-- All three cases occur: no variable in the first row, one in the first row only, one in every row. -/
example (O : Ops) : program O (fun _ => ⟨.num 0, .num 0, .num 0, .num 0⟩) [] = .error .noFirstVariable ∧
    program O (fun i => ⟨.num 0, .num 0, .num 0, if i = 0 then .sym "th_1" else .num 0⟩) [] = .error .noIndex ∧
    program O (fun i => ⟨.num 0, .num 0, if i = 0 then .sym "d_1" else .num 0, if i = 1 then .sym "th_2" else .num 0⟩) [] ≠ .error .noFirstVariable ∧
    program O (fun i => ⟨.num 0, .num 0, if i = 0 then .sym "d_1" else .num 0, if i = 1 then .sym "th_2" else .num 0⟩) [] ≠ .error .noIndex := by
  refine ⟨(C78_first_row_iff O _ []).1.2 (by simp), (C78_first_row_iff O _ []).2.2 (by simp), ?_, ?_⟩
  · intro h; have := (C78_first_row_iff O _ []).1.1 h; simp at this
  · intro h; have := ((C78_first_row_iff O _ []).2.1 h).2 1 (by decide); simp at this
end Verif.Main
