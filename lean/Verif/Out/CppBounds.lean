import Verif.Out.Order
/-!
# C64: the generated C++ program writes only inside its array of solutions

The array is declared as `double sol_list[64][6]` (output_cpp.py:115) and passed as `double solution_list[64][6]` (line 129).
-/
namespace Verif.Out
open Verif.Leaf Verif.Sol

/-- the C++ text of an element of the array, `solution_list[i][j]` -/
def element (i j : Nat) : Text := s!"solution_list[{i}][{j}]".toList

/-- every assignment of the program to an element of the array is inside of `[64][6]` -/
def InBounds (ops : List Op) : Prop := ∀ i j r, (element i j, r) ∈ asgns ops → i < 64 ∧ j < 6

theorem element_eq (i j : Nat) : element i j = "solution_list[".toList ++ natText i ++ "][".toList ++ natText j ++ "]".toList := by
  simp [element, natText, toString, Nat.repr, String.toList_append]

theorem digits_split {a b r r' : Text} (ha : ∀ c ∈ a, c.isDigit = true) (hb : ∀ c ∈ b, c.isDigit = true)
    (h : a ++ ']' :: r = b ++ ']' :: r') : a = b ∧ r = r' := by
  induction a generalizing b with
  | nil =>
    cases b with
    | nil => simpa using h
    | cons c b =>
      have := hb c (by simp)
      simp only [List.nil_append, List.cons_append, List.cons.injEq] at h
      rw [← h.1] at this; exact absurd this (by decide)
  | cons d a ih =>
    cases b with
    | nil =>
      have := ha d (by simp)
      simp only [List.nil_append, List.cons_append, List.cons.injEq] at h
      rw [h.1] at this; exact absurd this (by decide)
    | cons c b =>
      simp only [List.cons_append, List.cons.injEq] at h
      obtain ⟨h1, h2⟩ := ih (fun x hx => ha x (by simp [hx])) (fun x hx => hb x (by simp [hx])) h.2
      exact ⟨by rw [h.1, h1], h2⟩

theorem natText_inj {i k : Nat} (h : natText i = natText k) : i = k := by
  have := congrArg (fun t => Nat.ofDigitChars 10 t 0) h
  simpa [natText, Nat.ofDigitChars_ten_toDigits] using this

theorem natText_digit (n : Nat) : ∀ c ∈ natText n, c.isDigit = true := fun _ hc => Nat.isDigit_of_mem_toDigits (by omega) (by omega) hc

theorem element_inj {i j k l : Nat} (h : element i j = element k l) : i = k ∧ j = l := by
  simp only [element_eq, List.append_assoc, List.append_cancel_left_eq] at h
  have e1 : "][".toList = [']', '['] := by decide
  have e2 : "]".toList = [']'] := by decide
  simp only [e1, e2, List.cons_append, List.nil_append] at h
  obtain ⟨h1, h2⟩ := digits_split (natText_digit i) (natText_digit k) h
  simp only [List.cons.injEq, true_and] at h2
  obtain ⟨h3, _⟩ := digits_split (natText_digit j) (natText_digit l) h2
  exact ⟨natText_inj h1, natText_inj h3⟩

/-- an assignment of the part before the packing is to a left side of the table -/
theorem nodes_lhs {mat : FMat} {nodes : List GNode} {body : List Op} (hb : cppNodes mat nodes = some body) :
    ∀ p ∈ asgns body, ∃ row ∈ mat, ∃ e ∈ row, p.1 = e.1 := by
  simp only [cppNodes, Option.map_eq_some_iff] at hb
  obtain ⟨bs, hbs, rfl⟩ := hb
  intro p hp
  obtain ⟨l, hl1, hl2⟩ := asgns_flatten bs p hp
  obtain ⟨n, _, hn⟩ := mapM_mem hbs l hl1
  simp only [cppNode, Option.map_eq_some_iff] at hn
  obtain ⟨rs, hrs, rfl⟩ := hn
  obtain ⟨l', hl3, hl4⟩ := asgns_flatten rs p hl2
  obtain ⟨row, hrow, hr⟩ := mapM_mem hrs l' hl3
  simp only [Option.map_eq_some_iff] at hr
  obtain ⟨e, he, rfl⟩ := hr
  exact ⟨row, hrow, e, pyGet_mem he, version_lhs n _ p hl4⟩

/-- the elements that the packing writes -/
theorem mem_rows {i j : Nat} {r : Text} : ∀ {gs : List (List Text)} {k : Nat}, (element i j, r) ∈ asgns (packRows k gs) ↔
    k ≤ i ∧ ∃ g, gs[i - k]? = some g ∧ (tsort g)[j]? = some r := by
  have hrow : ∀ (k m : Nat) (vs : List Text), (element i j, r) ∈ asgns (packRow k m vs) ↔ k = i ∧ m ≤ j ∧ vs[j - m]? = some r := by
    intro k m vs
    induction vs generalizing m with
    | nil => simp [packRow, asgns]
    | cons v vs ih =>
      rw [packRow, ← element_eq, asgns, List.mem_cons, ih, Prod.mk.injEq]
      constructor
      · rintro (⟨h1, h2⟩ | ⟨h1, h2, h3⟩)
        · obtain ⟨rfl, rfl⟩ := element_inj h1; simp [h2]
        · refine ⟨h1, by omega, ?_⟩
          rw [show j - m = (j - (m + 1)) + 1 by omega, List.getElem?_cons_succ, h3]
      · rintro ⟨rfl, h2, h3⟩
        by_cases hm : m = j
        · subst hm; left; simpa [eq_comm] using h3
        · right; refine ⟨rfl, by omega, ?_⟩
          rwa [show j - m = (j - (m + 1)) + 1 by omega, List.getElem?_cons_succ] at h3
  intro gs
  induction gs with
  | nil => simp [packRows, asgns]
  | cons g gs ih =>
    intro k
    rw [packRows, asgns_append, List.mem_append, hrow, ih]
    constructor
    · rintro (⟨rfl, _, h3⟩ | ⟨h1, g', h2, h3⟩)
      · exact ⟨Nat.le_refl _, g, by simp, by simpa using h3⟩
      · refine ⟨by omega, g', ?_, h3⟩
        rw [show i - k = (i - (k + 1)) + 1 by omega, List.getElem?_cons_succ, h2]
    · rintro ⟨h1, g', h2, h3⟩
      by_cases hk : k = i
      · subst hk
        simp only [Nat.sub_self, List.getElem?_cons_zero, Option.some.injEq] at h2
        subst h2
        exact .inl ⟨rfl, Nat.zero_le _, by simpa using h3⟩
      · right; refine ⟨by omega, g', ?_, h3⟩
        rwa [show i - k = (i - (k + 1)) + 1 by omega, List.getElem?_cons_succ] at h2

/-- **C64, exactly.** The program declares an array of 64 rows of 6 numbers, and it writes only inside of it if and only if the solution set has at
most 64 rows (empty rows after the 64th do no harm) and no row has more than 6 names. (The names assigned elsewhere are no elements of the array.) -/
theorem C64_bounds_iff (nodes : List GNode) (mat : FMat) (groups : List (List Text)) (ops : List Op)
    (h : cppCode nodes mat groups = some ops) (hm : ∀ row ∈ mat, ∀ e ∈ row, ∀ i j, e.1 ≠ element i j) :
    Op.line "double sol_list[64][6] = {0};  // list of solutions".toList ∈ ops ∧
    Op.line "int ikin(double T[4][4], double solution_list[64][6] )".toList ∈ ops ∧
    (InBounds ops ↔ (∀ (i : Nat) (g : List Text), groups[i]? = some g → g ≠ [] → i < 64) ∧ ∀ g ∈ groups, g.length ≤ 6) := by
  simp only [cppCode, Option.map_eq_some_iff] at h
  obtain ⟨body, hb, rfl⟩ := h
  refine ⟨by simp [cppMain], by simp, ?_⟩
  have hw : ∀ i j r, (element i j, r) ∈ asgns (cppMain ++ [.line "int ikin(double T[4][4], double solution_list[64][6] )".toList, .push] ++ body ++
      packRows 0 groups ++ [.line "return(solvable_pose);".toList, .pop]) ↔ ∃ g, groups[i]? = some g ∧ (tsort g)[j]? = some r := by
    intro i j r
    have h1 : asgns cppMain = [] := rfl
    simp only [asgns_append, h1, asgns, List.append_nil, List.nil_append, List.mem_append, mem_rows, Nat.sub_zero, Nat.zero_le, true_and]
    refine ⟨?_, .inr⟩
    rintro (h | h)
    · obtain ⟨row, hr, e, he, hpe⟩ := nodes_lhs hb _ h
      exact absurd hpe.symm (hm row hr e he i j)
    · exact h
  unfold InBounds
  simp only [hw]
  constructor
  · intro hin
    constructor
    · intro i g hg hne
      cases hs : (tsort g)[0]? with
      | none =>
        rw [List.getElem?_eq_none_iff, (tsort_perm g).length_eq] at hs
        exact absurd (List.eq_nil_of_length_eq_zero (by omega)) hne
      | some r => exact (hin i 0 r ⟨g, hg, hs⟩).1
    · intro g hg
      obtain ⟨i, hi⟩ := List.getElem?_of_mem hg
      by_cases hl : g.length ≤ 6
      · exact hl
      · have hlt : 6 < (tsort g).length := by rw [(tsort_perm g).length_eq]; omega
        have := (hin i 6 _ ⟨g, hi, List.getElem?_eq_getElem hlt⟩).2
        omega
  · rintro ⟨h1, h2⟩ i j r ⟨g, hg, hr⟩
    have hj : j < (tsort g).length := (List.getElem?_eq_some_iff.1 hr).1
    rw [(tsort_perm g).length_eq] at hj
    refine ⟨h1 i g hg (by rintro rfl; simp at hj), ?_⟩
    have := h2 g (List.mem_of_getElem? hg)
    omega

/-- both sides are true of the small program, and false of one with a group of seven names: it writes `solution_list[0][6]` -/
example : (∀ row ∈ demoPyMat, ∀ e ∈ row, ∀ i j, e.1 ≠ element i j) ∧ (cppCode demoNodes demoPyMat [["yv1".toList, "xv1".toList]]).isSome ∧
    (cppCode demoNodes demoPyMat [["a".toList, "b".toList, "c".toList, "d".toList, "e".toList, "f".toList, "g".toList]]).map
      (fun ops => decide ((element 0 6, "g".toList) ∈ asgns ops)) = some true := by
  refine ⟨?_, by decide +kernel, by decide +kernel⟩
  have h : ∀ row ∈ demoPyMat, ∀ e ∈ row, '[' ∉ e.1 := by decide +kernel
  intro row hr e he i j hij
  refine absurd ?_ (h row hr e he)
  rw [hij, element_eq]
  simp

end Verif.Out
