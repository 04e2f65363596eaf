import Verif.Out.CppCompile
import Verif.Out.PyProps
/-!
# C65: the generated C++ function never compiles
-/
namespace Verif.Out
open Verif.Leaf Verif.Sol

theorem digits_drop (a : Text) {c : Char} (hc : c.isDigit = false) (n : Nat) :
    (a ++ [c] ++ (toString n).toList).reverse.dropWhile Char.isDigit = c :: a.reverse := by
  have hd : ∀ x ∈ (toString n).toList.reverse, x.isDigit = true := by
    intro x hx
    rw [List.mem_reverse] at hx
    have : (toString n).toList = Nat.toDigits 10 n := by simp [toString, Nat.repr]
    rw [this] at hx
    exact Nat.isDigit_of_mem_toDigits (by omega) (by omega) hx
  rw [List.reverse_append, List.reverse_append]
  have : ∀ (l r : Text), (∀ x ∈ l, x.isDigit = true) → (l ++ r).dropWhile Char.isDigit = r.dropWhile Char.isDigit := by
    intro l r h
    induction l with
    | nil => rfl
    | cons x l ih =>
      rw [List.cons_append, List.dropWhile_cons, if_pos (h x (by simp)), ih fun y hy => h y (by simp [hy])]
  rw [this _ _ hd]
  simp [hc]

theorem render_v_text (a : String) (i : Nat) : (VName.v a i).render.toList = a.toList ++ ['v'] ++ (toString i).toList := by
  simp [VName.render, String.toList_append]

theorem render_s_text (a : String) (i : Nat) : (VName.s a i).render.toList = a.toList ++ ['s'] ++ (toString i).toList := by
  simp [VName.render, String.toList_append]

theorem render_v_unk {a b : String} {i j : Nat} (h : (VName.v a i).render.toList = (VName.v b j).render.toList) : a = b := by
  rw [render_v_text, render_v_text] at h
  have h1 := digits_drop a.toList (c := 'v') (by decide) i
  rw [h, digits_drop b.toList (c := 'v') (by decide) j] at h1
  simp only [List.cons.injEq, List.reverse_inj, true_and] at h1
  exact (String.toList_inj.1 h1).symm

theorem ident_render (v : VName) (h : ∀ c ∈ v.unk.toList, isW c = true) : Ident v.render.toList := by
  have hd : ∀ n : Nat, ∀ x ∈ (toString n).toList, isW x = true := by
    intro n x hx
    have : (toString n).toList = Nat.toDigits 10 n := by simp [toString, Nat.repr]
    rw [this] at hx
    have := Nat.isDigit_of_mem_toDigits (b := 10) (by omega) (by omega) hx
    simp [isW, Char.isAlphanum, this]
  cases v with
  | s a i =>
    rw [render_s_text]
    refine ⟨by simp, fun c hc => ?_⟩
    simp only [List.mem_append, List.mem_singleton] at hc
    rcases hc with (hc | rfl) | hc
    · exact h c hc
    · decide
    · exact hd i c hc
  | v a i =>
    rw [render_v_text]
    refine ⟨by simp, fun c hc => ?_⟩
    simp only [List.mem_append, List.mem_singleton] at hc
    rcases hc with (hc | rfl) | hc
    · exact h c hc
    · decide
    · exact hd i c hc

/-- **C65 violated, for every robot.** Whatever is solved: for each of the rows, the function assigns the row's version of the unknown that was
solved first, and does not declare it. What is declared of this unknown are the names of its solutions. A C++ compiler rejects the file. -/
theorem C65_never_compiles_violation (name : Text) (hn : '\n' ∉ name) (str : Sym.Expr → Text) (u : SolUnk) (us : List SolUnk) (hin : TableInput u us)
    (hv : ∀ w ∈ u :: us, w.versionNames ≠ []) (hname : ∀ w ∈ u :: us, ∀ e ∈ w.versionNames, e.unk = w.name)
    (hid : ∀ w ∈ u :: us, ∀ c ∈ w.name.toList, isW c = true)
    (t : List (List FEqn)) (ht : makeLHSVersions (u :: us) (createSolutionSet (u :: us)) = .ok t)
    (groups : List (List Text)) (hg : IsGroups (u :: us) groups) (vars : List Text) (hvars : ∀ x, x ∈ vars ↔ ∃ g ∈ groups, x ∈ g)
    (params : List Text) (hp : ∀ p ∈ params, Ident p)
    (nodes : List (Text × GNode)) (hnodes : ∀ sn ∈ nodes, 1 ≤ sn.2.order ∧ ∃ ts, sn.2.method = methodText ts ∧ OneCase ts)
    (hfirst : ∃ sn ∈ nodes, sn.2.order = 1)
    (ops : List Op) (h : cppFile name vars params nodes (textMat str t) groups = some ops)
    (k : Nat) (hk : k < (createSolutionSet (u :: us)).length) (hpar : (VName.v u.name (k + 1)).render.toList ∉ params) :
    (VName.v u.name (k + 1)).render.toList ∈ assigned (printed ops) ∧ (VName.v u.name (k + 1)).render.toList ∉ declared (printed ops) ∧
    ∀ x ∈ vars, (∃ i, x = (VName.s u.name i).render.toList) ∨ ∃ w ∈ us, ∃ i, x = (VName.s w.name i).render.toList ∨
      x = (VName.v w.name i).render.toList := by
  obtain ⟨l, hl⟩ : ∃ l, (u :: us).getLast? = some l := ⟨_, List.getLast?_eq_some_getLast (by simp)⟩
  obtain ⟨hFlen, hF⟩ := C18_equations_exact hl ht
  have hlab := C17_rows_labelled (u :: us) hv hname
  -- names in the solutions
  have hmem : ∀ x ∈ vars, (∃ i, x = (VName.s u.name i).render.toList) ∨ ∃ w ∈ us, ∃ i, x = (VName.s w.name i).render.toList ∨
      x = (VName.v w.name i).render.toList := by
    intro x hx
    obtain ⟨g, hgm, hxg⟩ := (hvars x).1 hx
    obtain ⟨r, hr, rfl⟩ := (hg g).1 hgm
    have hrl := hlab r hr
    obtain ⟨i, hi⟩ := C47_first_unknown_used u us hin r hr
    obtain ⟨rest, rfl⟩ : ∃ rest, r = VName.s u.name i :: rest := by
      cases r with
      | nil => cases hi
      | cons a l => cases hi; exact ⟨l, rfl⟩
    simp only [List.map_cons, List.cons.injEq] at hrl
    simp only [List.map_cons, List.mem_cons, List.mem_map] at hxg
    rcases hxg with rfl | ⟨v, hvm, rfl⟩
    · exact .inl ⟨i, rfl⟩
    · have : v.unk ∈ us.map (·.name) := by rw [← hrl.2]; exact List.mem_map.2 ⟨v, hvm, rfl⟩
      obtain ⟨w, hw, he⟩ := List.mem_map.1 this
      cases v with
      | s a j => exact .inr ⟨w, hw, j, .inl (by rw [he]; rfl)⟩
      | v a j => exact .inr ⟨w, hw, j, .inr (by rw [he]; rfl)⟩
  have hidv : ∀ v ∈ vars, Ident v := by
    intro v hvm
    rcases hmem v hvm with ⟨i, rfl⟩ | ⟨w, hw, i, rfl | rfl⟩
    · exact ident_render _ (hid u (by simp))
    · exact ident_render _ (hid w (by simp [hw]))
    · exact ident_render _ (hid w (by simp [hw]))
  -- left sides of the table
  have hgood : GoodNames (textMat str t) := by
    intro row hrow e he
    simp only [textMat, List.mem_map] at hrow
    obtain ⟨es, hes, rfl⟩ := hrow
    obtain ⟨fe, hfe, rfl⟩ := List.mem_map.1 he
    obtain ⟨j, hj⟩ := List.getElem?_of_mem hes
    have hjl : j < (createSolutionSet (u :: us)).length := by rw [← hFlen]; exact (List.getElem?_eq_some_iff.1 hj).1
    obtain ⟨es', h1, h2, h3⟩ := hF j _ (List.getElem?_eq_getElem hjl)
    rw [hj] at h1; cases h1
    obtain ⟨c, hc⟩ := List.getElem?_of_mem hfe
    have hcl : c < (u :: us).length := by rw [← h2]; exact (List.getElem?_eq_some_iff.1 hc).1
    obtain ⟨sol, _, h4⟩ := h3 c _ (List.getElem?_eq_getElem hcl)
    rw [hc] at h4
    have hfe2 : fe.lhs = (VName.v (u :: us)[c].name (j + 1)).render := by
      rw [Option.some.inj h4]
    have hw : (u :: us)[c] ∈ u :: us := List.getElem_mem hcl
    simp only [hfe2]
    refine ⟨ident_render _ (hid _ hw), ?_, ?_⟩
    · intro hd
      have := lastStem_v (u :: us)[c].name (j + 1)
      rw [hd] at this; revert this; decide
    · intro hd
      have := lastStem_v (u :: us)[c].name (j + 1)
      rw [hd] at this; revert this; decide
  have hne : vars ≠ [] := by
    have hrm := List.getElem_mem hk
    have hgm := (hg _).2 ⟨_, hrm, rfl⟩
    obtain ⟨i, hi⟩ := C47_first_unknown_used u us hin _ hrm
    refine List.ne_nil_of_mem ((hvars (VName.s u.name i).render.toList).2 ⟨_, hgm, ?_⟩)
    exact List.mem_map.2 ⟨_, List.mem_of_mem_head? hi, rfl⟩
  refine ⟨?_, ?_, hmem⟩
  · rw [C65_assigned name vars params nodes _ groups ops hn hne hidv hp hgood h]
    refine .inr ⟨ident_render _ (hid u (by simp)), ?_⟩
    obtain ⟨ops', hops', hsame⟩ := C65_same_assignments name vars params nodes _ groups ops hgood h
    obtain ⟨front, hf1, hf2⟩ := C47_cpp_once_partial (nodes.map (·.2)) _ groups ops' hops' (by
      intro n hnm
      obtain ⟨sn, hsn, rfl⟩ := List.mem_map.1 hnm
      exact hnodes sn hsn)
    obtain ⟨sn, hsn, hord⟩ := hfirst
    have hx : (VName.v u.name (k + 1)).render.toList ∈ front.map (·.1) := by
      rw [hf2]
      refine List.mem_flatMap.2 ⟨sn.2, List.mem_map.2 ⟨sn, hsn, rfl⟩, ?_⟩
      obtain ⟨es, h1, _, h3⟩ := hF k _ (List.getElem?_eq_getElem hk)
      obtain ⟨sol, _, h4⟩ := h3 0 u rfl
      refine List.mem_map.2 ⟨_, List.mem_map.2 ⟨es, List.mem_of_getElem? h1, rfl⟩, ?_⟩
      rw [hord, lhsAt]
      simp [h4]
    obtain ⟨p, hpm, hpe⟩ := List.mem_map.1 hx
    refine ⟨p.2, ?_⟩
    rw [hsame, hf1, ← hpe]
    exact List.mem_append_left _ hpm
  · rw [C65_declared name vars params nodes _ groups ops hn hne hidv hp hgood h]
    simp only [List.mem_append, not_or]
    have hsv := lastStem_v u.name (k + 1)
    refine ⟨⟨?_, ?_⟩, hpar⟩
    · intro hf
      have : ∀ x ∈ fixedNames, lastStem x ≠ some 'v' := by decide +kernel
      exact this _ hf hsv
    · intro hx
      rcases hmem _ hx with ⟨i, he⟩ | ⟨w, hw, i, he | he⟩
      · rw [he, lastStem_s] at hsv; cases hsv
      · rw [he, lastStem_s] at hsv; cases hsv
      · have := render_v_unk he
        have hnd := hin.1
        rw [List.map_cons, List.nodup_cons] at hnd
        exact hnd.1 (List.mem_map.2 ⟨w, hw, this.symm⟩)

/-! ## Non-vacuity -/

/-- two solved unknowns with their printed symbols -/
def demoCFileNodes : List (Text × GNode) := [("x".toList, ⟨1, "atan2(y,x)".toList, []⟩), ("y".toList, ⟨2, "arccos".toList, "a/b".toList⟩)]
def demoVars : List Text := ["xs1".toList, "yv1".toList, "yv2".toList]
def demoGroups : List (List Text) := [["xs1".toList, "yv1".toList], ["xs1".toList, "yv2".toList]]

theorem goodNames_of {mat : FMat}
    (h : mat.all (fun row => row.all fun e => !e.1.isEmpty && e.1.all isW && e.1 != "double".toList && e.1 != "int".toList) = true) : GoodNames mat := by
  intro row hr e he
  have := List.all_eq_true.1 (List.all_eq_true.1 h row hr) e he
  simp only [Bool.and_eq_true, bne_iff_ne, List.all_eq_true, Bool.not_eq_true', List.isEmpty_eq_false_iff] at this
  exact ⟨⟨this.1.1.1, this.1.1.2⟩, this.1.2, this.2⟩

/-- Non-vacuity of C65_same_assignments, C65_declared, C65_assigned and C65_declared_iff: a file for two unknowns. -/
example : ∃ ops, cppFile "Rob".toList demoVars ["l_1".toList] demoCFileNodes demoMat demoGroups = some ops ∧ GoodNames demoMat ∧ '\n' ∉ "Rob".toList ∧
    (∀ v ∈ demoVars, Ident v) ∧ Ident "l_1".toList ∧ (∀ x, x ∈ demoVars ↔ ∃ g ∈ demoGroups, x ∈ g) ∧
    declared (printed ops) = fixedNames ++ ["xs1".toList, "yv1".toList, "yv2".toList, "l_1".toList] ∧
    assigned (printed ops) = ["xv1", "xv2", "argument", "solvable_pose", "yv1", "argument", "solvable_pose", "yv2"].map String.toList := by
  have h : (cppFile "Rob".toList demoVars ["l_1".toList] demoCFileNodes demoMat demoGroups).map (fun ops =>
      decide (declared (printed ops) = fixedNames ++ ["xs1".toList, "yv1".toList, "yv2".toList, "l_1".toList] ∧
    assigned (printed ops) = ["xv1", "xv2", "argument", "solvable_pose", "yv1", "argument", "solvable_pose", "yv2"].map String.toList)) = some true := by
    decide +kernel
  obtain ⟨ops, h1, h2⟩ := Option.map_eq_some_iff.1 h
  rw [decide_eq_true_eq] at h2
  refine ⟨ops, h1, goodNames_of (by decide +kernel), by decide, ?_, ⟨by decide, by decide⟩, ?_, h2⟩
  · have : demoVars.all (fun v => !v.isEmpty && v.all isW) = true := by decide
    intro v hv
    have := List.all_eq_true.1 this v hv
    simp only [Bool.and_eq_true, List.all_eq_true, Bool.not_eq_true', List.isEmpty_eq_false_iff] at this
    exact this
  · have : ∀ (a b c x : Text), x ∈ [a, b, c] ↔ ∃ g ∈ [[a, b], [a, c]], x ∈ g := by
      intro a b c x
      simp only [List.mem_cons, List.not_mem_nil, or_false, exists_eq_or_imp, exists_eq_left]
      clear h h1 h2
      tauto
    exact this _ _ _

/-- Non-vacuity of C65_terminated_partial and C65_argument_violation: without the second node, without parameters, every line is complete;
with the second node, its line is there. -/
example : (∀ sn ∈ demoCFileNodes.take 1, isTrig sn.2.method = false) ∧
    (cppFile "Rob".toList demoVars [] (demoCFileNodes.take 1) demoMat demoGroups).isSome ∧
    demoMat ≠ [] ∧ isTrig "arccos".toList = true ∧ (∀ c ∈ "a/b".toList, c ∉ ['*', ';', '{', '}', ' ']) ∧
    ((cppFile "Rob".toList demoVars [] demoCFileNodes demoMat demoGroups).map fun ops => decide ("argument = a/b".toList ∈ printed ops)) = some true := by
  refine ⟨by decide +kernel, by decide +kernel, by decide, by decide, by decide, by decide +kernel⟩

/-- y = x + 1, after x = ±r -/
def demoY1 : SolUnk := { demoY with versionNames := [.s "y" 1] }

/-- Non-vacuity of C65_never_compiles_violation: `xv1` and `xv2` are assigned, `xs1`, `xs2`, `yv1` and `yv2` are declared. -/
example : ∃ t ops, TableInput demoX [demoY1] ∧ (∀ w ∈ [demoX, demoY1], w.versionNames ≠ []) ∧ (∀ w ∈ [demoX, demoY1], ∀ e ∈ w.versionNames, e.unk = w.name) ∧
    (∀ w ∈ [demoX, demoY1], ∀ c ∈ w.name.toList, isW c = true) ∧
    makeLHSVersions [demoX, demoY1] (createSolutionSet [demoX, demoY1]) = .ok t ∧
    IsGroups [demoX, demoY1] ((createSolutionSet [demoX, demoY1]).map fun r => r.map fun v => v.render.toList) ∧
    (∀ sn ∈ [("x".toList, (⟨1, "algebra".toList, []⟩ : GNode)), ("y".toList, ⟨2, "atan2(y,x)".toList, []⟩)],
      1 ≤ sn.2.order ∧ ∃ ts, sn.2.method = methodText ts ∧ OneCase ts) ∧
    cppFile "Rob".toList ["xs1".toList, "xs2".toList, "yv1".toList, "yv2".toList] [] [("x".toList, ⟨1, "algebra".toList, []⟩), ("y".toList, ⟨2, "atan2(y,x)".toList, []⟩)]
      (textMat (fun _ => ['?']) t) ((createSolutionSet [demoX, demoY1]).map fun r => r.map fun v => v.render.toList) = some ops ∧
    assigned (printed ops) = ["xv1".toList, "xv2".toList, "yv1".toList, "yv2".toList] := by
  have ht : makeLHSVersions [demoX, demoY1] (createSolutionSet [demoX, demoY1]) = .ok
      [[⟨"xv1", .sym "r"⟩, ⟨"yv1", .bin .add (.sym "xs1") (.num 1)⟩],
       [⟨"xv2", .sym "r"⟩, ⟨"yv2", .bin .add (.sym "xs2") (.num 1)⟩]] := ok_of_view (by decide +kernel)
  have h : (cppFile "Rob".toList ["xs1".toList, "xs2".toList, "yv1".toList, "yv2".toList] [] [("x".toList, ⟨1, "algebra".toList, []⟩), ("y".toList, ⟨2, "atan2(y,x)".toList, []⟩)]
      (textMat (fun _ => ['?']) [[⟨"xv1", .sym "r"⟩, ⟨"yv1", .bin .add (.sym "xs1") (.num 1)⟩],
       [⟨"xv2", .sym "r"⟩, ⟨"yv2", .bin .add (.sym "xs2") (.num 1)⟩]]) ((createSolutionSet [demoX, demoY1]).map fun r => r.map fun v => v.render.toList)).map
      (fun ops => decide (assigned (printed ops) = ["xv1".toList, "xv2".toList, "yv1".toList, "yv2".toList])) = some true := by decide +kernel
  obtain ⟨ops, h1, h2⟩ := Option.map_eq_some_iff.1 h
  rw [decide_eq_true_eq] at h2
  refine ⟨_, ops, ⟨by decide, rfl, by decide⟩, by decide, by decide, by decide, ht, ?_, ?_, h1, h2⟩
  · intro g
    rw [List.mem_map]
    exact ⟨fun ⟨r, h1, h2⟩ => ⟨r, h1, h2.symm⟩, fun ⟨r, h1, h2⟩ => ⟨r, h1, h2.symm⟩⟩
  · intro sn hsn
    simp only [List.mem_cons, List.not_mem_nil, or_false] at hsn
    rcases hsn with rfl | rfl
    · exact ⟨by decide, [.algebra], by decide +kernel, by decide⟩
    · exact ⟨by decide, [.atan2], by decide +kernel, by decide⟩

end Verif.Out
