import Verif.Out.CppFileProps
/-!
# C65: declared and assigned names of the generated C++ function
-/
namespace Verif.Out
open Verif.Leaf Verif.Sol

theorem splitNl_cons {u : Text} (hu : '\n' ∉ u) (v : Text) : splitNl (u ++ '\n' :: v) = u :: splitNl v := by
  induction u with
  | nil => simp [splitNl]
  | cons c u ih =>
    rw [List.cons_append, splitNl, if_neg (fun e => hu (by simp [e])), ih fun hm => hu (by simp [hm])]

/-- the lines before the function are not its head -/
theorem chead_lines {name : Text} (hn : '\n' ∉ name) : ∀ o ∈ multi (headText1 ++ name ++ headText2), opText o ≠ ikinHead := by
  obtain ⟨a, ha⟩ : ∃ a : Text, "  C++ inverse kinematic equations for ".toList = a := ⟨_, rfl⟩
  obtain ⟨t, ht⟩ : ∃ t : Text, headText2.tail = t := ⟨_, rfl⟩
  have h1 : headText1 = "//".toList ++ '\n' :: ('/' :: '/' :: a) := by rw [← ha]; decide +kernel
  have h2 : headText2 = '\n' :: t := by rw [← ht]; decide +kernel
  have hna : '\n' ∉ a := by rw [← ha]; decide +kernel
  have hnil : splitNl (headText1 ++ name ++ headText2) = "//".toList :: ('/' :: '/' :: (a ++ name)) :: splitNl t := by
    rw [h1, h2]
    rw [show "//".toList ++ '\n' :: ('/' :: '/' :: a) ++ name ++ '\n' :: t = "//".toList ++ '\n' :: (('/' :: '/' :: (a ++ name)) ++ '\n' :: t) by simp]
    rw [splitNl_cons (by decide), splitNl_cons]
    simp [hna, hn]
  have htl : ∀ l ∈ splitNl t, cppLine l ≠ ikinHead := by rw [← ht]; decide +kernel
  intro o ho
  rw [multi, hnil] at ho
  simp only [List.map_cons, List.mem_cons, List.mem_map] at ho
  have hc : ∀ s : Text, cppLine ('/' :: '/' :: s) ≠ ikinHead := by
    intro s
    obtain ⟨r', h⟩ := cppLine_prefix (p := ['/']) (c := '/') (by decide) (by decide) (by decide) (by decide) (by decide) s
    rw [List.singleton_append, List.singleton_append] at h
    rw [h]
    have : ikinHead = 'i' :: ikinHead.tail := by decide +kernel
    rw [this]; simp
  rcases ho with rfl | rfl | ⟨l, hl, rfl⟩
  · exact hc []
  · exact hc _
  · exact htl l hl

theorem dropWhile_head {pre : List Text} {x : Text} {r : List Text} (h : ∀ l ∈ pre, l ≠ x) : (pre ++ x :: r).dropWhile (· ≠ x) = x :: r := by
  induction pre with
  | nil => simp
  | cons l pre ih =>
    rw [List.cons_append, List.dropWhile_cons, if_pos (by simpa using h l (by simp)), ih fun y hy => h y (by simp [hy])]

/-- the lines of the function -/
theorem ikin_lines {name : Text} (hn : '\n' ∉ name) (R : List Op) : ikinLines (printed (filePre name ++ .line ikinHead :: R)) = R.map opText := by
  rw [printed_eq, ikinLines, List.map_append, List.map_cons]
  have hh : opText (.line ikinHead) = ikinHead := by decide +kernel
  have hpre : ∀ l ∈ (filePre name).map opText, l ≠ ikinHead := by
    have h1 : ∀ o ∈ cppMain ++ multi "\n// Code to solve the unknowns ".toList ++ multi "\n\n// Declarations".toList, opText o ≠ ikinHead := by
      decide +kernel
    intro l hl
    obtain ⟨o, ho, rfl⟩ := List.mem_map.1 hl
    rw [filePre, List.mem_append] at ho
    rcases ho with ho | ho
    · exact chead_lines hn o ho
    · exact h1 o ho
  rw [hh, dropWhile_head hpre]
  rfl

/-- what the file says about the versions of an unknown: the names it assigns -/
theorem version_lines (n : GNode) (k : Nat) {e : Text × Text} (he : Ident e.1) (hk : e.1 ≠ "double".toList ∧ e.1 ≠ "int".toList) :
    (∀ o ∈ fileVersion n k e, declares (opText o) = []) ∧
    (∀ x, x ∈ (fileVersion n k e).flatMap (fun o => assigns (opText o)) ↔
      (isTrig n.method = true ∧ (x = "argument".toList ∨ x = "solvable_pose".toList)) ∨ ∃ r, (x, r) ∈ asgns (cppVersion n e)) := by
  have hc : ∀ t : Text, declares (opText (.line ('/' :: '/' :: t))) = [] ∧ assigns (opText (.line ('/' :: '/' :: t))) = [] := declares_comment
  have ha : ∀ r : Text, declares (opText (.asgn e.1 r)) = [] ∧ assigns (opText (.asgn e.1 r)) = [e.1] := by
    intro r
    have := cline_asgn he hk (r ++ ";".toList)
    rw [← List.append_assoc] at this
    exact this
  have harg : declares (opText (.line ("argument = ".toList ++ n.arg))) = [] ∧
      assigns (opText (.line ("argument = ".toList ++ n.arg))) = ["argument".toList] := by
    have := cline_asgn (x := "argument".toList) ⟨by decide, by decide⟩ (by decide) n.arg
    rw [show "argument".toList ++ " = ".toList = "argument = ".toList from by decide] at this
    exact this
  have e1 : "// solution ".toList ++ natText k = '/' :: '/' :: (" solution ".toList ++ natText k) := by
    rw [← List.cons_append, ← List.cons_append]; congr 1
  have e2 : "// solvemethod: ".toList ++ n.method = '/' :: '/' :: (" solvemethod: ".toList ++ n.method) := by
    rw [← List.cons_append, ← List.cons_append]; congr 1
  have e3 : "//    argument: ".toList ++ n.arg = '/' :: '/' :: ("    argument: ".toList ++ n.arg) := by
    rw [← List.cons_append, ← List.cons_append]; congr 1
  have hblank : declares (opText (.line [])) = [] ∧ assigns (opText (.line [])) = [] := by decide +kernel
  have hs1 : ∀ b : Bool, (∀ o ∈ (if b = true then [Op.asgn e.1 e.2] else []), declares (opText o) = []) ∧
      (if b = true then [Op.asgn e.1 e.2] else []).flatMap (fun o => assigns (opText o)) =
        (asgns (if b = true then [Op.asgn e.1 e.2] else [])).map (·.1) := by
    intro b
    cases b with
    | false => simp [asgns]
    | true => simp [asgns, ha]
  have htrig : (∀ o ∈ [Op.line "// Arcsin() or Arccos() based solution:".toList, .line ("argument = ".toList ++ n.arg), .line "if (solvable_pose && fabs(argument) > 1)".toList, .push,
     .line "solvable_pose = False; ".toList, .pop, .line "else if (solvable_pose)".toList, .push,
     .asgn e.1 (n.method ++ "(argument)".toList), .pop], declares (opText o) = []) ∧
     [Op.line "// Arcsin() or Arccos() based solution:".toList, .line ("argument = ".toList ++ n.arg), .line "if (solvable_pose && fabs(argument) > 1)".toList, .push,
     .line "solvable_pose = False; ".toList, .pop, .line "else if (solvable_pose)".toList, .push,
     .asgn e.1 (n.method ++ "(argument)".toList), .pop].flatMap (fun o => assigns (opText o)) = ["argument".toList, "solvable_pose".toList, e.1] := by
    have f1 : declares (opText (.line "// Arcsin() or Arccos() based solution:".toList)) = [] ∧
      assigns (opText (.line "// Arcsin() or Arccos() based solution:".toList)) = [] := by decide +kernel
    have f2 : declares (opText (.line "if (solvable_pose && fabs(argument) > 1)".toList)) = [] ∧
      assigns (opText (.line "if (solvable_pose && fabs(argument) > 1)".toList)) = [] := by decide +kernel
    have f3 : declares (opText (.line "solvable_pose = False; ".toList)) = [] ∧
      assigns (opText (.line "solvable_pose = False; ".toList)) = ["solvable_pose".toList] := by decide +kernel
    have f4 : declares (opText (.line "else if (solvable_pose)".toList)) = [] ∧
      assigns (opText (.line "else if (solvable_pose)".toList)) = [] := by decide +kernel
    have f5 : declares (opText .push) = [] ∧ assigns (opText .push) = [] := by decide +kernel
    have f6 : declares (opText .pop) = [] ∧ assigns (opText .pop) = [] := by decide +kernel
    constructor
    · simp only [List.mem_cons, List.not_mem_nil, or_false]
      rintro o (rfl | rfl | rfl | rfl | rfl | rfl | rfl | rfl | rfl | rfl)
      · exact f1.1
      · exact harg.1
      · exact f2.1
      · exact f5.1
      · exact f3.1
      · exact f6.1
      · exact f4.1
      · exact f5.1
      · exact (ha _).1
      · exact f6.1
    · simp only [List.flatMap_cons, List.flatMap_nil, f1.2, f2.2, f3.2, f4.2, f5.2, f6.2, harg.2, (ha _).2, List.nil_append, List.append_nil]
      rfl
  have hfv : fileVersion n k e = [.line [], .line ("// solution ".toList ++ natText k), .line ("// solvemethod: ".toList ++ n.method),
   .line ("//    argument: ".toList ++ n.arg)] ++ ((if isTrig n.method then [Op.line "// Arcsin() or Arccos() based solution:".toList, .line ("argument = ".toList ++ n.arg), .line "if (solvable_pose && fabs(argument) > 1)".toList, .push,
     .line "solvable_pose = False; ".toList, .pop, .line "else if (solvable_pose)".toList, .push,
     .asgn e.1 (n.method ++ "(argument)".toList), .pop] else []) ++
  (if (!isTrig n.method && within "atan2(y,x)".toList n.method) = true then [.asgn e.1 e.2] else []) ++
  (if within "algebra".toList n.method = true then [.asgn e.1 e.2] else []) ++
  (if within "x2z2".toList n.method = true then [.asgn e.1 e.2] else []) ++
  (if within "simultaneous eqn".toList n.method = true then [.asgn e.1 e.2] else [])) := by
    rw [fileVersion, cppVersion]
    cases isTrig n.method <;> rfl
  have hav : (asgns (cppVersion n e)).map (·.1) = (if isTrig n.method then [e.1] else []) ++
    ((asgns (if (!isTrig n.method && within "atan2(y,x)".toList n.method) = true then [.asgn e.1 e.2] else [])).map (·.1) ++
    ((asgns (if within "algebra".toList n.method = true then [.asgn e.1 e.2] else [])).map (·.1) ++
    ((asgns (if within "x2z2".toList n.method = true then [.asgn e.1 e.2] else [])).map (·.1) ++
    (asgns (if within "simultaneous eqn".toList n.method = true then [.asgn e.1 e.2] else [])).map (·.1)))) := by
    rw [cppVersion]
    simp only [asgns_append, List.map_append, List.append_assoc]
    have : asgns [Op.line ("// solvemethod: ".toList ++ n.method)] = [] := rfl
    rw [this, List.map_nil, List.nil_append]
    congr 1
    cases isTrig n.method <;> rfl
  constructor
  · rw [hfv]
    intro o ho
    simp only [List.mem_append] at ho
    rcases ho with ho | (((ho | ho) | ho) | ho) | ho
    · simp only [List.mem_cons, List.not_mem_nil, or_false] at ho
      rcases ho with rfl | rfl | rfl | rfl
      · exact hblank.1
      · rw [e1]; exact (hc _).1
      · rw [e2]; exact (hc _).1
      · rw [e3]; exact (hc _).1
    · split at ho
      · exact htrig.1 o ho
      · cases ho
    · exact (hs1 _).1 o ho
    · exact (hs1 _).1 o ho
    · exact (hs1 _).1 o ho
    · exact (hs1 _).1 o ho
  · intro x
    have hmem : (∃ r, (x, r) ∈ asgns (cppVersion n e)) ↔ x ∈ (asgns (cppVersion n e)).map (·.1) := by
      simp
    rw [hmem, hav, hfv]
    simp only [List.flatMap_append, List.append_assoc, (hs1 _).2]
    rw [show [Op.line [], .line ("// solution ".toList ++ natText k), .line ("// solvemethod: ".toList ++ n.method),
       .line ("//    argument: ".toList ++ n.arg)].flatMap (fun o => assigns (opText o)) = [] from by
         rw [e1, e2, e3]
         simp only [List.flatMap_cons, List.flatMap_nil, hblank.2, (hc _).2, List.append_nil], List.nil_append]
    generalize (asgns (if (!isTrig n.method && within "atan2(y,x)".toList n.method) = true then [.asgn e.1 e.2] else [])).map (·.1) ++
      ((asgns (if within "algebra".toList n.method = true then [.asgn e.1 e.2] else [])).map (·.1) ++
      ((asgns (if within "x2z2".toList n.method = true then [.asgn e.1 e.2] else [])).map (·.1) ++
      (asgns (if within "simultaneous eqn".toList n.method = true then [.asgn e.1 e.2] else [])).map (·.1))) = rest
    cases ht : isTrig n.method with
    | false => simp
    | true =>
      simp only [if_true, htrig.2, List.mem_append, List.mem_cons, List.not_mem_nil, or_false, true_and]
      constructor
      · rintro ((h | h | h) | h) <;> simp [h]
      · rintro ((h | h) | h | h) <;> simp [h]

/-- the rows of the answer declare and assign no name -/
theorem pack_lines (gs : List (List Text)) : ∀ i, ∀ o ∈ packRows i gs, declares (opText o) = [] ∧ assigns (opText o) = [] := by
  have hrow : ∀ (i j : Nat) (vs : List Text), ∀ o ∈ packRow i j vs, declares (opText o) = [] ∧ assigns (opText o) = [] := by
    intro i j vs
    induction vs generalizing j with
    | nil => intro o ho; cases ho
    | cons v vs ih =>
      intro o ho
      rw [packRow, List.mem_cons] at ho
      rcases ho with rfl | ho
      · have := line_elem (natText i ++ "][".toList ++ natText j ++ "]".toList ++ " = ".toList ++ v ++ ";".toList)
        simpa only [opText, List.append_assoc] using this
      · exact ih _ o ho
  induction gs with
  | nil => intro i o ho; cases ho
  | cons g gs ih =>
    intro i o ho
    rw [packRows, List.mem_append] at ho
    rcases ho with ho | ho
    · exact hrow _ _ _ o ho
    · exact ih _ o ho

theorem flatMap_none {α β : Type} {f : α → List β} {l : List α} (h : ∀ a ∈ l, f a = []) : l.flatMap f = [] := by
  rw [List.flatMap_eq_nil_iff]; exact h

theorem asgns_lines {l : List Op} (h : ∀ o ∈ l, ∃ t, o = .line t) : asgns l = [] := by
  induction l with
  | nil => rfl
  | cons o l ih =>
    obtain ⟨t, rfl⟩ := h o (by simp)
    exact ih fun o ho => h o (by simp [ho])

theorem multi_lines (t : Text) : ∀ o ∈ multi t, ∃ t, o = .line t := by
  intro o ho
  obtain ⟨l, _, rfl⟩ := List.mem_map.1 ho
  exact ⟨l, rfl⟩

theorem version_asgns (n : GNode) (k : Nat) (e : Text × Text) : asgns (fileVersion n k e) = asgns (cppVersion n e) := by
  obtain ⟨m, r, hr⟩ : ∃ m r, cppVersion n e = .line m :: r := ⟨_, _, rfl⟩
  rw [fileVersion, hr, List.tail_cons]
  cases isTrig n.method <;> rfl

/-- The left sides of the table can be read back. -/
def GoodNames (mat : FMat) : Prop := ∀ row ∈ mat, ∀ e ∈ row, Ident e.1 ∧ e.1 ≠ "double".toList ∧ e.1 ≠ "int".toList

/-- the lines of one unknown -/
theorem cnode_lines {mat : FMat} (hm : GoodNames mat) {sn : Text × GNode} {b : List Op} (h : fileNode mat sn = some b) :
    ∃ b', cppNode mat sn.2 = some b' ∧ asgns b = asgns b' ∧ (∀ o ∈ b, declares (opText o) = []) ∧
    (∀ x, x ∈ b.flatMap (fun o => assigns (opText o)) ↔
      (mat ≠ [] ∧ isTrig sn.2.method = true ∧ (x = "argument".toList ∨ x = "solvable_pose".toList)) ∨ ∃ r, (x, r) ∈ asgns b') := by
  obtain ⟨sym, n⟩ := sn
  rw [fileNode, Option.map_eq_some_iff] at h
  obtain ⟨ls, hls, rfl⟩ := h
  have key : ∀ (rows : FMat) (k : Nat) (ls : List (List Op)), (∀ row ∈ rows, row ∈ mat) →
      ((rows.zipIdx k).mapM fun rk => (pyGet rk.1 (n.order - 1)).map (fileVersion n rk.2)) = some ls →
      ∃ rs, (rows.mapM fun row => (pyGet row (n.order - 1)).map (cppVersion n)) = some rs ∧ asgns ls.flatten = asgns rs.flatten ∧
        (∀ o ∈ ls.flatten, declares (opText o) = []) ∧
        (∀ x, x ∈ ls.flatten.flatMap (fun o => assigns (opText o)) ↔
          (rows ≠ [] ∧ isTrig n.method = true ∧ (x = "argument".toList ∨ x = "solvable_pose".toList)) ∨ ∃ r, (x, r) ∈ asgns rs.flatten) := by
    intro rows
    induction rows with
    | nil =>
      intro k ls _ h
      rw [List.zipIdx_nil, List.mapM_nil] at h
      cases h
      exact ⟨[], rfl, rfl, by simp, by simp [asgns]⟩
    | cons row rows ih =>
      intro k ls hsub h
      rw [List.zipIdx_cons, List.mapM_cons] at h
      simp only [Option.pure_def, Option.bind_eq_bind, Option.bind_eq_some_iff, Option.map_eq_some_iff] at h
      obtain ⟨v, ⟨e, he, rfl⟩, ls', hls', hl⟩ := h
      cases hl
      obtain ⟨rs, h1, h2, h3, h4⟩ := ih (k + 1) ls' (fun r hr => hsub r (by simp [hr])) hls'
      obtain ⟨g1, g2⟩ := hm row (hsub row (by simp)) e (pyGet_mem he)
      obtain ⟨v1, v2⟩ := version_lines n k g1 g2
      have hfa := version_asgns n k e
      refine ⟨cppVersion n e :: rs, ?_, ?_, ?_, ?_⟩
      · rw [List.mapM_cons, h1, he]; rfl
      · rw [List.flatten_cons, List.flatten_cons, asgns_append, asgns_append, h2, hfa]
      · intro o ho
        rw [List.flatten_cons, List.mem_append] at ho
        rcases ho with ho | ho
        · exact v1 o ho
        · exact h3 o ho
      · intro x
        rw [List.flatten_cons, List.flatMap_append, List.mem_append, v2, h4, List.flatten_cons, asgns_append]
        simp only [List.mem_append, ne_eq, reduceCtorEq, not_false_eq_true, true_and]
        constructor
        · rintro ((⟨h, h'⟩ | ⟨r, h⟩) | (⟨_, h⟩ | ⟨r, h⟩))
          · exact .inl ⟨h, h'⟩
          · exact .inr ⟨r, .inl h⟩
          · exact .inl h
          · exact .inr ⟨r, .inr h⟩
        · rintro (h | ⟨r, h | h⟩)
          · exact .inl (.inl h)
          · exact .inl (.inr ⟨r, h⟩)
          · exact .inr (.inr ⟨r, h⟩)
  obtain ⟨rs, h1, h2, h3, h4⟩ := key mat 0 ls (fun _ h => h) hls
  have hpre : ∀ o ∈ multi "\n\n".toList, declares (opText o) = [] ∧ assigns (opText o) = [] := by decide +kernel
  have e1 : "//Variable: ".toList ++ sym = '/' :: '/' :: ("Variable: ".toList ++ sym) := by
    rw [← List.cons_append, ← List.cons_append]; congr 1
  have hv : declares (opText (.line ("//Variable: ".toList ++ sym))) = [] ∧ assigns (opText (.line ("//Variable: ".toList ++ sym))) = [] := by
    rw [e1]; exact declares_comment _
  refine ⟨rs.flatten, ?_, ?_, ?_, ?_⟩
  · rw [cppNode, h1]; rfl
  · rw [asgns_append, asgns_append, asgns_lines (multi_lines _), h2]; rfl
  · intro o ho
    simp only [List.mem_append, List.mem_singleton] at ho
    rcases ho with (ho | rfl) | ho
    · exact (hpre o ho).1
    · exact hv.1
    · exact h3 o ho
  · intro x
    rw [List.flatMap_append, List.flatMap_append, flatMap_none (fun o ho => (hpre o ho).2), List.flatMap_singleton, hv.2]
    exact h4 x

/-- all unknowns -/
theorem nodes_lines {mat : FMat} (hm : GoodNames mat) : ∀ {nodes : List (Text × GNode)} {bs : List (List Op)},
    nodes.mapM (fileNode mat) = some bs →
    ∃ body, cppNodes mat (nodes.map (·.2)) = some body ∧ asgns bs.flatten = asgns body ∧ (∀ o ∈ bs.flatten, declares (opText o) = []) ∧
    (∀ x, x ∈ bs.flatten.flatMap (fun o => assigns (opText o)) ↔
      (mat ≠ [] ∧ (∃ sn ∈ nodes, isTrig sn.2.method = true) ∧ (x = "argument".toList ∨ x = "solvable_pose".toList)) ∨ ∃ r, (x, r) ∈ asgns body)
  | [], bs, h => by
    rw [List.mapM_nil] at h; cases h
    exact ⟨[], rfl, rfl, by simp, by simp [asgns]⟩
  | sn :: nodes, bs, h => by
    rw [List.mapM_cons] at h
    simp only [Option.pure_def, Option.bind_eq_bind, Option.bind_eq_some_iff] at h
    obtain ⟨b, hb, bs', hbs, hl⟩ := h
    cases hl
    obtain ⟨b', a1, a2, a3, a4⟩ := cnode_lines hm hb
    obtain ⟨body, c1, c2, c3, c4⟩ := nodes_lines hm hbs
    refine ⟨b' ++ body, ?_, ?_, ?_, ?_⟩
    · simp only [cppNodes, Option.map_eq_some_iff] at c1 ⊢
      obtain ⟨l, hl, rfl⟩ := c1
      refine ⟨b' :: l, ?_, by simp⟩
      rw [List.map_cons, List.mapM_cons, a1, hl]; rfl
    · rw [List.flatten_cons, asgns_append, asgns_append, a2, c2]
    · intro o ho
      rw [List.flatten_cons, List.mem_append] at ho
      rcases ho with ho | ho
      · exact a3 o ho
      · exact c3 o ho
    · intro x
      rw [List.flatten_cons, List.flatMap_append, List.mem_append, a4, c4, asgns_append]
      simp only [List.mem_append, List.mem_cons, exists_eq_or_imp]
      constructor
      · rintro ((⟨h1, h2, h3⟩ | ⟨r, h⟩) | (⟨h1, h2, h3⟩ | ⟨r, h⟩))
        · exact .inl ⟨h1, .inl h2, h3⟩
        · exact .inr ⟨r, .inl h⟩
        · exact .inl ⟨h1, .inr h2, h3⟩
        · exact .inr ⟨r, .inr h⟩
      · rintro (⟨h1, h2 | h2, h3⟩ | ⟨r, h | h⟩)
        · exact .inl (.inl ⟨h1, h2, h3⟩)
        · exact .inr (.inl ⟨h1, h2, h3⟩)
        · exact .inl (.inr ⟨r, h⟩)
        · exact .inr (.inr ⟨r, h⟩)

/-! ## The file -/

/-- **C65, the file and its statements.** The assignments of the file are those of the statements of C47, C52 and C64: all that those theorems say
of the assignments holds of the file. -/
theorem C65_same_assignments (name : Text) (vars params : List Text) (nodes : List (Text × GNode)) (mat : FMat) (groups : List (List Text))
    (ops : List Op) (hm : GoodNames mat) (h : cppFile name vars params nodes mat groups = some ops) :
    ∃ ops', cppCode (nodes.map (·.2)) mat groups = some ops' ∧ asgns ops = asgns ops' := by
  rw [cppFile, Option.map_eq_some_iff] at h
  obtain ⟨bs, hbs, rfl⟩ := h
  obtain ⟨body, h1, h2, _⟩ := nodes_lines hm hbs
  refine ⟨_, by rw [cppCode, h1]; rfl, ?_⟩
  have e1 : asgns (filePre name) = [] := by
    rw [filePre, asgns_append, asgns_lines (multi_lines _)]
    decide +kernel
  have e2 : asgns (fileDecls vars params) = [] := by
    rw [fileDecls]
    simp only [asgns_append, List.cons_append, asgns, asgns_lines (multi_lines _), List.nil_append, List.append_nil]
    refine asgns_lines fun o ho => ?_
    obtain ⟨p, _, rfl⟩ := List.mem_map.1 ho
    exact ⟨_, rfl⟩
  have e3 : asgns cppMain = [] := rfl
  simp only [asgns_append, asgns, e1, e2, e3, asgns_lines (multi_lines _), List.nil_append, List.append_nil, h2]

/-- **C65, declared names.** Read back from its text, the function declares exactly: the twelve entries of the pose, `argument`, `True`, `False`,
`solvable_pose`, the names in the solution set and the parameters. -/
theorem C65_declared (name : Text) (vars params : List Text) (nodes : List (Text × GNode)) (mat : FMat) (groups : List (List Text))
    (ops : List Op) (hn : '\n' ∉ name) (hne : vars ≠ []) (hv : ∀ v ∈ vars, Ident v) (hp : ∀ p ∈ params, Ident p) (hm : GoodNames mat)
    (h : cppFile name vars params nodes mat groups = some ops) :
    declared (printed ops) = fixedNames ++ vars ++ params := by
  rw [cppFile, Option.map_eq_some_iff] at h
  obtain ⟨bs, hbs, rfl⟩ := h
  obtain ⟨body, _, _, h3, _⟩ := nodes_lines hm hbs
  rw [declared, ikin_lines hn, List.flatMap_map]
  have f1 : (Op.push :: (multi inputText ++ [.line "int solvable_pose = True;".toList, .line "// declare variables in solutions".toList])).flatMap
      (fun o => declares (opText o)) = fixedNames := by decide +kernel
  have f2 : [Op.line [], .line "// declare constant parameters (note they will need values!)".toList, .line []].flatMap
      (fun o => declares (opText o)) = [] := by decide +kernel
  have f3 : [Op.line []].flatMap (fun o => declares (opText o)) = [] := by decide +kernel
  have f4 : (multi packText ++ [Op.line "//(note trailing commas allowed in C++".toList, .line []]).flatMap (fun o => declares (opText o)) = [] := by
    decide +kernel
  have f5 : (multi "\n\n".toList ++ [Op.line "// return 1 for solved, 0 for no solution".toList, .line "return(solvable_pose);".toList, .pop]).flatMap
      (fun o => declares (opText o)) = [] := by decide +kernel
  have f6 : (params.map fun p => Op.line (parDecl p)).flatMap (fun o => declares (opText o)) = params := by
    rw [List.flatMap_map]
    clear h3 f1 f2 f3 f4 f5
    induction params with
    | nil => rfl
    | cons p ps ih =>
      rw [List.flatMap_cons, ih fun q hq => hp q (by simp [hq])]
      exact congrArg (· ++ ps) (line_parDecl (hp p (by simp))).1
  have f7 : [Op.line (varDecl vars)].flatMap (fun o => declares (opText o)) = vars := by
    rw [List.flatMap_singleton]; exact (line_varDecl hne hv).1
  rw [fileDecls]
  simp only [List.flatMap_append]
  simp only [List.flatMap_append] at f1 f2 f3 f4 f5
  rw [f1, f2, f3, f4, f5, f6, f7, flatMap_none h3, flatMap_none (fun o ho => (pack_lines groups 0 o ho).1)]
  simp

/-- **C65, assigned names.** Read back from its text, the function assigns exactly: `argument` and `solvable_pose` (if some unknown was solved by
an arcsine or arccosine), and the left sides of the assignments that are names. -/
theorem C65_assigned (name : Text) (vars params : List Text) (nodes : List (Text × GNode)) (mat : FMat) (groups : List (List Text))
    (ops : List Op) (hn : '\n' ∉ name) (hne : vars ≠ []) (hv : ∀ v ∈ vars, Ident v) (hp : ∀ p ∈ params, Ident p) (hm : GoodNames mat)
    (h : cppFile name vars params nodes mat groups = some ops) (x : Text) :
    x ∈ assigned (printed ops) ↔
      (mat ≠ [] ∧ (∃ sn ∈ nodes, isTrig sn.2.method = true) ∧ (x = "argument".toList ∨ x = "solvable_pose".toList)) ∨
      (Ident x ∧ ∃ r, (x, r) ∈ asgns ops) := by
  obtain ⟨ops', hops', hsame⟩ := C65_same_assignments name vars params nodes mat groups ops hm h
  rw [hsame]
  rw [cppFile, Option.map_eq_some_iff] at h
  obtain ⟨bs, hbs, rfl⟩ := h
  obtain ⟨body, h1, h2, _, h4⟩ := nodes_lines hm hbs
  rw [assigned, ikin_lines hn, List.flatMap_map]
  have f1 : (Op.push :: (multi inputText ++ [.line "int solvable_pose = True;".toList, .line "// declare variables in solutions".toList])).flatMap
      (fun o => assigns (opText o)) = [] := by decide +kernel
  have f2 : [Op.line [], .line "// declare constant parameters (note they will need values!)".toList, .line []].flatMap
      (fun o => assigns (opText o)) = [] := by decide +kernel
  have f3 : [Op.line []].flatMap (fun o => assigns (opText o)) = [] := by decide +kernel
  have f4 : (multi packText ++ [Op.line "//(note trailing commas allowed in C++".toList, .line []]).flatMap (fun o => assigns (opText o)) = [] := by
    decide +kernel
  have f5 : (multi "\n\n".toList ++ [Op.line "// return 1 for solved, 0 for no solution".toList, .line "return(solvable_pose);".toList, .pop]).flatMap
      (fun o => assigns (opText o)) = [] := by decide +kernel
  have f6 : (params.map fun p => Op.line (parDecl p)).flatMap (fun o => assigns (opText o)) = [] := by
    rw [List.flatMap_map]
    exact flatMap_none fun p hpm => (line_parDecl (hp p hpm)).2
  have f7 : [Op.line (varDecl vars)].flatMap (fun o => assigns (opText o)) = [] := by
    rw [List.flatMap_singleton]; exact (line_varDecl hne hv).2
  rw [fileDecls]
  simp only [List.flatMap_append]
  simp only [List.flatMap_append] at f1 f2 f3 f4 f5
  rw [f1, f2, f3, f4, f5, f6, f7, flatMap_none (fun o ho => (pack_lines groups 0 o ho).2)]
  simp only [List.nil_append, List.append_nil]
  rw [h4]
  rw [cppCode, h1, Option.map_some, Option.some.injEq] at hops'
  subst hops'
  have e3 : asgns cppMain = [] := rfl
  simp only [asgns_append, asgns, e3, List.nil_append, List.append_nil, List.mem_append]
  refine or_congr_right ?_
  constructor
  · rintro ⟨r, hr⟩
    obtain ⟨row, hrow, e, he, hx⟩ := nodes_lhs h1 _ hr
    refine ⟨?_, r, .inl hr⟩
    simp only at hx
    rw [hx]; exact (hm row hrow e he).1
  · rintro ⟨hx, r, hr | hr⟩
    · exact ⟨r, hr⟩
    · have := pack_lhs groups 0 _ hr
      simp only [lastStem] at this
      have hmem := List.mem_of_mem_head? this
      have hb : ']' ∈ x := by
        have := (List.dropWhile_suffix _).subset hmem
        simpa using this
      exact absurd hb (hx.no (by decide))

/-- **C65, exactly.** Every variable that the function assigns is declared in it, if and only if every name on a left side is one of the names in
the solution set (or, by accident, a parameter or a fixed name). -/
theorem C65_declared_iff (name : Text) (vars params : List Text) (nodes : List (Text × GNode)) (mat : FMat) (groups : List (List Text))
    (ops : List Op) (hn : '\n' ∉ name) (hvars : ∀ x, x ∈ vars ↔ ∃ g ∈ groups, x ∈ g) (hg : ∃ g ∈ groups, g ≠ [])
    (hv : ∀ g ∈ groups, ∀ v ∈ g, Ident v) (hp : ∀ p ∈ params, Ident p) (hm : GoodNames mat)
    (h : cppFile name vars params nodes mat groups = some ops) :
    (∀ x ∈ assigned (printed ops), x ∈ declared (printed ops)) ↔
      ∀ x r, (x, r) ∈ asgns ops → Ident x → (∃ g ∈ groups, x ∈ g) ∨ x ∈ params ∨ x ∈ fixedNames := by
  have hne : vars ≠ [] := by
    obtain ⟨g, hgm, hgn⟩ := hg
    obtain ⟨x, hx⟩ := List.exists_mem_of_ne_nil _ hgn
    exact List.ne_nil_of_mem ((hvars x).2 ⟨g, hgm, hx⟩)
  have hv' : ∀ v ∈ vars, Ident v := by
    intro v hvm
    obtain ⟨g, hgm, hx⟩ := (hvars v).1 hvm
    exact hv g hgm v hx
  rw [C65_declared name vars params nodes mat groups ops hn hne hv' hp hm h]
  simp only [C65_assigned name vars params nodes mat groups ops hn hne hv' hp hm h, List.mem_append, hvars]
  constructor
  · intro H x r hr hx
    rcases H x (.inr ⟨hx, r, hr⟩) with (h | h) | h
    · exact .inr (.inr h)
    · exact .inl h
    · exact .inr (.inl h)
  · rintro H x (⟨_, _, rfl | rfl⟩ | ⟨hx, r, hr⟩)
    · exact .inl (.inl (by decide +kernel))
    · exact .inl (.inl (by decide +kernel))
    · rcases H x r hr hx with h | h | h
      · exact .inl (.inr h)
      · exact .inr h
      · exact .inl (.inl h)

end Verif.Out
