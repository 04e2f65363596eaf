import Verif.Main.Props
import Verif.Out.PyFileProps
import Verif.Out.CppUndeclared
/-!
# C80: the generated functions read the target pose from the right entries of their argument
-/
namespace Verif.Main
open Verif.Out

/-! ## The specification: readers of lines -/

/-- a Python line `x = text`, at any indentation: the name and the text -/
def pyAssign (l : Text) : Option (Text × Text) :=
  let s := l.dropWhile (· == ' ')
  let x := s.takeWhile isW
  if x ≠ [] ∧ " = ".toList <+: s.drop x.length then some (x, s.drop (x.length + 3)) else none

/-- a C++ line `double x = text;`, without indentation: the name and the text -/
def cppInit (l : Text) : Option (Text × Text) :=
  let b := declBody (beforeComment l)
  let x := b.takeWhile isW
  if x ≠ [] ∧ " = ".toList <+: b.drop x.length ∧ "double ".toList <+: l then
    some (x, (b.drop (x.length + 3)).takeWhile (· != ';')) else none

/-- the twelve names of the target with the text of their entry -/
def entries (sub : Nat → Nat → String) : List (Text × Text) :=
  [(0, 0), (0, 1), (0, 2), (1, 0), (1, 1), (1, 2), (2, 0), (2, 1), (2, 2), (0, 3), (1, 3), (2, 3)].map fun p : Fin 3 × Fin 4 =>
    ((targetName p.1 p.2).toList, (sub p.1 p.2).toList)

def pySub (i j : Nat) : String := "T[" ++ toString i ++ "," ++ toString j ++ "]"
def cppSub (i j : Nat) : String := "T[" ++ toString i ++ "][" ++ toString j ++ "]"

/-- every entry of the first three rows is listed, once -/
theorem entries_all (sub : Nat → Nat → String) (i : Fin 3) (j : Fin 4) :
    (entries sub).filter (fun e => e.1 == (targetName i j).toList) = [((targetName i j).toList, (sub i j).toList)] := by
  have key : ∀ (i : Fin 3) (j : Fin 4), (([(0, 0), (0, 1), (0, 2), (1, 0), (1, 1), (1, 2), (2, 0), (2, 1), (2, 2), (0, 3), (1, 3), (2, 3)] :
      List (Fin 3 × Fin 4)).filter fun p => (targetName p.1 p.2).toList == (targetName i j).toList) = [(i, j)] := by decide +kernel
  rw [entries, List.filter_map]
  have := key i j
  rw [show ((fun e : Text × Text => e.1 == (targetName i j).toList) ∘ fun p : Fin 3 × Fin 4 =>
    ((targetName p.1 p.2).toList, (sub p.1 p.2).toList)) = fun p => (targetName p.1 p.2).toList == (targetName i j).toList from rfl, this]
  rfl

/-- a name that is none of the names of the target -/
def Other (x : Text) : Prop := ∀ i j, x ≠ (targetName i j).toList

/-! ## Python -/

theorem dropBlank {x r : Text} (hx : IsName x) (k : Nat) : (List.replicate k ' ' ++ (x ++ r)).dropWhile (· == ' ') = x ++ r := by
  induction k with
  | zero =>
    obtain ⟨c, h1, h2, _⟩ := name_head hx r
    cases h : x ++ r with
    | nil => rw [List.replicate_zero, List.nil_append]; rfl
    | cons a l =>
      rw [h] at h1; cases h1
      rw [List.replicate_zero, List.nil_append, List.dropWhile_cons, if_neg (by simpa using h2)]
  | succ k ih => rw [List.replicate_succ, List.cons_append, List.dropWhile_cons, if_pos (by simp), ih]

theorem pyAssign_name {x r : Text} (hx : IsName x) (k : Nat) : pyAssign (List.replicate k ' ' ++ (x ++ ' ' :: r)) = some (x, r.drop 2) ∨
    pyAssign (List.replicate k ' ' ++ (x ++ ' ' :: r)) = none := by
  unfold pyAssign
  simp only [dropBlank hx, takeWhile_ident (fun c hc => hx.2 c hc) (show isW ' ' = false by decide)]
  by_cases h : x ≠ [] ∧ " = ".toList <+: (x ++ ' ' :: r).drop x.length
  · rw [if_pos h]
    left
    rw [List.drop_append, List.drop_of_length_le (by omega)]
    simp
  · rw [if_neg h]; right; rfl

/-- a line that assigns at most `x` -/
def AtMost (x l : Text) : Prop := ∀ e, pyAssign l = some e → e.1 = x

theorem atMost_name {x r : Text} (hx : IsName x) (k : Nat) : AtMost x (List.replicate k ' ' ++ (x ++ ' ' :: r)) := by
  intro e he
  rcases pyAssign_name (r := r) hx k with h | h
  · rw [h] at he; cases he; rfl
  · rw [h] at he; cases he

/-- a line whose first character after the blanks cannot be part of a name -/
theorem pyAssign_none {c : Char} {r : Text} (hc : isW c = false) (hb : c ≠ ' ') (k : Nat) : pyAssign (List.replicate k ' ' ++ c :: r) = none := by
  have : (List.replicate k ' ' ++ c :: r).dropWhile (· == ' ') = c :: r := by
    induction k with
    | zero => rw [List.replicate_zero, List.nil_append, List.dropWhile_cons, if_neg (by simpa using hb)]
    | succ k ih => rw [List.replicate_succ, List.cons_append, List.dropWhile_cons, if_pos (by simp), ih]
  unfold pyAssign
  simp [this, hc]

/-- a line that begins with a word and no blank after it -/
theorem pyAssign_word {x r : Text} {c : Char} (hx : IsName x) (hc : isW c = false) (hb : c ≠ ' ') (k : Nat) :
    pyAssign (List.replicate k ' ' ++ (x ++ c :: r)) = none := by
  unfold pyAssign
  simp only [dropBlank hx, takeWhile_ident (fun c hc => hx.2 c hc) hc]
  rw [if_neg]
  rintro ⟨_, h⟩
  rw [List.drop_append, List.drop_of_length_le (Nat.le_refl _)] at h
  obtain ⟨t, ht⟩ := h
  have := congrArg List.head? ht
  simp at this
  exact hb this.symm

/-- what a statement of the generated function assigns -/
def opNames : PyOp → List Text
  | .guarded _ x _ => [x]
  | .asgn x _ => [x]
  | .pack _ => []

theorem op_assigns {o : PyOp} (ho : GoodOp o) : ∀ l ∈ o.lines, ∀ e, pyAssign l = some e → e.1 ∈ opNames o ∨ e.1 = "solvable_pose".toList := by
  intro l hl e he
  cases o with
  | guarded g x r =>
    obtain ⟨hg, hx, hr⟩ := ho
    simp only [PyOp.lines, List.mem_cons, List.not_mem_nil, or_false] at hl
    rcases hl with rfl | rfl | rfl | rfl
    · have h2 : pyAssign ("    if (solvable_pose and abs ".toList ++ g ++ "  > 1):".toList) = none := by
        unfold pyAssign
        have e1 : ("    if (solvable_pose and abs ".toList ++ g ++ "  > 1):".toList).dropWhile (· == ' ') =
            "if".toList ++ (' ' :: '(' :: ("solvable_pose and abs ".toList ++ g ++ "  > 1):".toList)) := by
          exact dropBlank (x := "if".toList) ⟨by decide, by decide⟩ 4
        simp only [e1, takeWhile_ident (x := "if".toList) (by decide +kernel) (show isW ' ' = false by decide)]
        rw [if_neg]
        rintro ⟨_, h⟩
        obtain ⟨t, ht⟩ := h
        have := congrArg (·[1]?) ht
        simp at this
      rw [h2] at he; cases he
    · right
      have : pyAssign "        solvable_pose = False".toList = some ("solvable_pose".toList, "False".toList) := by decide +kernel
      rw [this] at he; cases he; rfl
    · have : pyAssign "    else:".toList = none := by decide +kernel
      rw [this] at he; cases he
    · left
      have := atMost_name (r := "= ".toList ++ r) hx 8
      have h2 := this e (by rw [← he]; simp [List.replicate])
      rw [h2]; exact List.mem_singleton.2 rfl
  | asgn x r =>
    obtain ⟨hx, hr⟩ := ho
    simp only [PyOp.lines, List.mem_cons, List.not_mem_nil, or_false] at hl
    subst hl
    left
    have := atMost_name (r := "= ".toList ++ r) hx 4
    have h2 := this e (by rw [← he]; simp [List.replicate])
    rw [h2]; exact List.mem_singleton.2 rfl
  | pack vs =>
    exfalso
    simp only [PyOp.lines, List.mem_append, List.mem_cons, List.not_mem_nil, or_false, List.mem_map] at hl
    rcases hl with ((rfl | rfl) | ⟨v, hv, rfl⟩) | rfl
    · have : pyAssign "    #(note trailing commas allowed in python".toList = none := by decide +kernel
      rw [this] at he; cases he
    · have : pyAssign "    solution_list.append( [ ".toList = none := by decide +kernel
      rw [this] at he; cases he
    · have := pyAssign_word (x := v) (c := ',') (r := " ".toList) (ho v hv) (by decide) (by decide) 0
      rw [show v ++ ", ".toList = List.replicate 0 ' ' ++ (v ++ ',' :: " ".toList) from rfl, this] at he
      cases he
    · have : pyAssign "] )".toList = none := by decide +kernel
      rw [this] at he; cases he

theorem body_assigns {mat : FMat} (hm : GoodMat mat) (ho : ∀ row ∈ mat, ∀ e ∈ row, Other e.1) {nodes : List (Text × GNode)} {body : List (List Text)}
    (h : nodes.mapM (pyNodeLines mat) = some body) : ∀ l ∈ body.flatten, ∀ e, pyAssign l = some e → Other e.1 := by
  intro l hl e he
  obtain ⟨b, hb, hlb⟩ := List.mem_flatten.1 hl
  obtain ⟨n, hn⟩ := node_mem h b hb
  simp only [pyNodeLines, Option.map_eq_some_iff] at hn
  obtain ⟨ops, hops, rfl⟩ := hn
  simp only [List.mem_append, List.mem_cons, List.not_mem_nil, or_false] at hlb
  rcases hlb with (rfl | rfl | rfl) | hlb
  · cases he
  · cases he
  · have := pyAssign_none (c := '#') (r := "Variable:  ".toList ++ n.1) (by decide) (by decide) 4
    rw [show "    #Variable:  ".toList ++ n.1 = List.replicate 4 ' ' ++ '#' :: ("Variable:  ".toList ++ n.1) from rfl, this] at he
    cases he
  · obtain ⟨ol, hol, hl2⟩ := List.mem_flatten.1 hlb
    obtain ⟨o, hom, rfl⟩ := List.mem_map.1 hol
    rcases op_assigns (node_good hm hops o hom) l hl2 e he with h1 | h1
    · have : ∃ row ∈ mat, ∃ x ∈ row, e.1 = x.1 := by
        simp only [pyNode, Option.map_eq_some_iff] at hops
        obtain ⟨vs, hvs, rfl⟩ := hops
        obtain ⟨os, ho1, ho2⟩ := List.mem_flatten.1 hom
        obtain ⟨row, hr, hv⟩ := mapM_mem hvs os ho1
        simp only [Option.bind_eq_some_iff] at hv
        obtain ⟨x, hx, hv⟩ := hv
        refine ⟨row, hr, x, pyGet_mem hx, ?_⟩
        simp only [pyVersion, Option.map_eq_some_iff] at hv
        obtain ⟨a, ha, rfl⟩ := hv
        simp only [List.mem_append] at ho2
        rcases ho2 with (h2 | h2) | h2
        · split at ha
          · simp only [Option.map_eq_some_iff] at ha
            obtain ⟨g, _, rfl⟩ := ha
            simp only [List.mem_singleton] at h2
            subst h2
            simpa [opNames] using h1
          · cases ha; cases h2
        · split at h2
          · simp only [List.mem_singleton] at h2; subst h2; simpa [opNames] using h1
          · cases h2
        · split at h2
          · simp only [List.mem_singleton] at h2; subst h2; simpa [opNames] using h1
          · cases h2
      obtain ⟨row, hr, x, hx, e1⟩ := this
      rw [e1]; exact ho row hr x hx
    · rw [h1]; unfold Other; decide +kernel

theorem params_assigns {pvals : List (Text × Text)} {params ps : List Text} (hp : ∀ p ∈ params, IsName p ∧ Other p) (h : pyParams pvals params = some ps) :
    ∀ l ∈ ps, ∀ e, pyAssign l = some e → Other e.1 := by
  simp only [pyParams, Option.map_eq_some_iff] at h
  obtain ⟨a, ha, rfl⟩ := h
  intro l hl e he
  simp only [List.cons_append, List.mem_cons, List.mem_append, List.not_mem_nil, or_false] at hl
  rcases hl with rfl | hl | rfl
  · cases he
  · split at ha
    · cases ha
      obtain ⟨p, hpm, rfl⟩ := List.mem_map.1 hl
      rw [atMost_name (hp p hpm).1 0 e he]
      exact (hp p hpm).2
    · obtain ⟨p, hpm, hv⟩ := mapM_mem ha l hl
      simp only [Option.map_eq_some_iff] at hv
      obtain ⟨val, _, rfl⟩ := hv
      rw [List.append_assoc] at he
      rw [atMost_name (r := "= ".toList ++ val) (hp p hpm).1 0 e he]
      exact (hp p hpm).2
  · cases he

instance (x : Text) : Decidable (Other x) := by unfold Other; infer_instance

/-- **C80, Python.** In the generated file, between the head of the function and the first solution, exactly the twelve entries of the target are
assigned, each from its own place in the argument `T`: row and column are those of the symbolic target. Nothing after it assigns any of them, unless
a parameter or an unknown has such a name. -/
theorem C80_python (name : Text) (pvals : List (Text × Text)) (params : List Text) (nodes : List (Text × GNode)) (mat : FMat)
    (groups : List (List Text)) (file : List Text) (hp : ∀ p ∈ params, IsName p ∧ Other p) (hm : GoodMat mat)
    (ho : ∀ row ∈ mat, ∀ e ∈ row, Other e.1) (hgr : ∀ g ∈ groups, ∀ v ∈ g, IsName v)
    (h : pyFile name pvals params nodes mat groups = some file) :
    ∃ head inside rest, file = head ++ ("def ".toList ++ pyFuncName name ++ "(T):".toList) :: (inside ++ rest) ∧
      head.filterMap pyAssign = [("pi".toList, "np.pi".toList)] ∧ inside.filterMap pyAssign = entries pySub ∧
      ∀ l ∈ rest, ∀ e, pyAssign l = some e → Other e.1 := by
  unfold pyFile at h
  split at h
  · rename_i ps body hps hbody
    cases h
    refine ⟨["#!/usr/bin/python".toList, "#  Python inverse kinematic equations for ".toList ++ name] ++
      pyImports.map String.toList ++ pyIntro.map String.toList, ["    if(T.shape != (4,4)):".toList,
       "        print ( \"bad input to \"+funcname)".toList, "        quit()".toList] ++
      pyInputs.map String.toList, pyParamHead.map String.toList ++ ps ++ pyCaution.map String.toList ++
      body.flatten ++ pyPackHead.map String.toList ++ ["    solution_list = []".toList] ++
      (groups.map fun g => (PyOp.pack (tsort g)).lines).flatten ++
      pyReturn.map String.toList ++ pyTest.map String.toList ++
      ["    list = ".toList ++ pyFuncName name ++ "(T1)".toList] ++ pyTestEnd.map String.toList, ?_, ?_, ?_, ?_⟩
    · simp only [List.append_assoc, List.cons_append, List.nil_append]
    · have h1 : (pyImports.map String.toList).filterMap pyAssign = [("pi".toList, "np.pi".toList)] := by decide +kernel
      have h2 : (pyIntro.map String.toList).filterMap pyAssign = [] := by decide +kernel
      have h3 : pyAssign "#!/usr/bin/python".toList = none := by decide +kernel
      have h4 : pyAssign ("#  Python inverse kinematic equations for ".toList ++ name) = none :=
        pyAssign_none (c := '#') (r := "  Python inverse kinematic equations for ".toList ++ name) (by decide) (by decide) 0
      rw [List.filterMap_append, List.filterMap_append, h1, h2, List.filterMap_cons, h3, List.filterMap_cons, h4]
      rfl
    · decide +kernel
    · have f : ∀ L : List String, L ∈ [pyParamHead, pyCaution, pyPackHead, pyReturn, pyTest, pyTestEnd] →
          ∀ l ∈ L.map String.toList, ∀ e ∈ pyAssign l, Other e.1 := by decide +kernel
      intro l hl e he
      simp only [List.mem_append, List.mem_singleton] at hl
      rcases hl with (((((((((hl | hl) | hl) | hl) | hl) | hl) | hl) | hl) | hl) | hl) | hl
      · exact f pyParamHead (by simp) l hl e he
      · exact params_assigns hp hps l hl e he
      · exact f pyCaution (by simp) l hl e he
      · exact body_assigns hm ho hbody l hl e he
      · exact f pyPackHead (by simp) l hl e he
      · subst hl
        have : pyAssign "    solution_list = []".toList = some ("solution_list".toList, "[]".toList) := by decide +kernel
        rw [this] at he; cases he; decide +kernel
      · obtain ⟨a, ha, hb⟩ := List.mem_flatten.1 hl
        obtain ⟨g, hg, rfl⟩ := List.mem_map.1 ha
        rcases op_assigns (o := .pack (tsort g)) (fun v hv => hgr g hg v ((tsort_perm g).mem_iff.1 hv)) l hb e he with h1 | h1
        · cases h1
        · rw [h1]; decide +kernel
      · exact f pyReturn (by simp) l hl e he
      · exact f pyTest (by simp) l hl e he
      · subst hl
        rw [List.append_assoc] at he
        rw [atMost_name (x := "list".toList) (r := "= ".toList ++ (pyFuncName name ++ "(T1)".toList)) ⟨by decide, by decide⟩ 4 e he]
        decide +kernel
      · exact f pyTestEnd (by simp) l hl e he
  · cases h

/-- **C80, Python, names.** Every function and constant that a printed solution can use is imported or defined before the function: the functions of
the printed expressions are `sin`, `cos`, `asin`, `acos`, `sqrt` and `atan2`; `pi` is a variable of the file. -/
theorem C80_python_imports (name : Text) (pvals : List (Text × Text)) (params : List Text) (nodes : List (Text × GNode)) (mat : FMat)
    (groups : List (List Text)) (file : List Text) (h : pyFile name pvals params nodes mat groups = some file) :
    ∀ f ∈ ["sin", "cos", "asin", "acos", "sqrt", "atan2"], ∃ head rest, file = head ++ ("def ".toList ++ pyFuncName name ++ "(T):".toList) :: rest ∧
      ("from math import " ++ f).toList ∈ head := by
  unfold pyFile at h
  split at h
  · cases h
    intro f hf
    refine ⟨["#!/usr/bin/python".toList, "#  Python inverse kinematic equations for ".toList ++ name] ++
      pyImports.map String.toList ++ pyIntro.map String.toList, _, by simp only [List.append_assoc, List.cons_append, List.nil_append]; rfl, ?_⟩
    have : ∀ f ∈ ["sin", "cos", "asin", "acos", "sqrt", "atan2"], ("from math import " ++ f).toList ∈ pyImports.map String.toList := by decide +kernel
    exact List.mem_append_left _ (List.mem_append_right _ (this f hf))
  · cases h

/-- the symbolic target of the solver has at row `i` and column `j` the name that the function reads from there -/
theorem C80_target (i : Fin 3) (j : Fin 4) : ikLhsS i.castSucc j = .sym (targetName i j) := by
  rw [← poseName_eq]
  unfold ikLhsS
  rw [dif_pos (by exact i.isLt)]
  rfl

/-- the hypotheses of `C80_python`: a robot with a parameter and two unknowns -/
example : (pyFile "Arm".toList [] ["l_1".toList] demoFileNodes demoFileMat [["xs1".toList, "yv1".toList]]).isSome = true ∧
    (∀ p ∈ ["l_1".toList], IsName p ∧ Other p) ∧ GoodMat demoFileMat ∧ (∀ row ∈ demoFileMat, ∀ e ∈ row, Other e.1) ∧
    ∀ v ∈ ["xs1".toList, "yv1".toList], IsName v := by
  refine ⟨by decide +kernel, ?_, ?_, by decide +kernel, ?_⟩
  · intro p hp; simp only [List.mem_singleton] at hp; subst hp; exact ⟨⟨by decide, by decide⟩, by decide +kernel⟩
  · intro row hr e he
    simp only [demoFileMat, List.mem_singleton] at hr
    subst hr
    simp only [List.mem_cons, List.not_mem_nil, or_false] at he
    rcases he with rfl | rfl
    · exact ⟨⟨by decide, by decide⟩, plain_of (by decide +kernel) (by decide +kernel) (by decide +kernel) (by decide +kernel)⟩
    · exact ⟨⟨by decide, by decide⟩, plain_of (by decide +kernel) (by decide +kernel) (by decide +kernel) (by decide +kernel)⟩
  · intro v hv
    simp only [List.mem_cons, List.not_mem_nil, or_false] at hv
    rcases hv with rfl | rfl <;> exact ⟨by decide, by decide⟩

/-! ## C++ -/

/-- **C80, C++.** In the generated function, the first lines declare exactly the twelve entries of the target as initialised variables, each from its
own place in the argument `T`: row and column are those of the symbolic target. Nothing after them declares or assigns one of these names, unless a
parameter or an unknown has such a name. -/
theorem C80_cpp (name : Text) (vars params : List Text) (nodes : List (Text × GNode)) (mat : FMat) (groups : List (List Text))
    (ops : List Op) (hn : '\n' ∉ name) (hne : vars ≠ []) (hv : ∀ v ∈ vars, Ident v ∧ Other v) (hp : ∀ p ∈ params, Ident p ∧ Other p)
    (hm : GoodNames mat) (ho : ∀ row ∈ mat, ∀ e ∈ row, Other e.1) (h : cppFile name vars params nodes mat groups = some ops) :
    ∃ inputs rest, ikinLines (printed ops) = inputs ++ rest ∧ inputs.filterMap cppInit = entries cppSub ∧ inputs.flatMap assigns = [] ∧
      ∀ l ∈ rest, (∀ x ∈ declares l, Other x) ∧ ∀ x ∈ assigns l, Other x := by
  rw [cppFile, Option.map_eq_some_iff] at h
  obtain ⟨bs, hbs, rfl⟩ := h
  obtain ⟨body, h1, _, h3, h4⟩ := nodes_lines hm hbs
  rw [ikin_lines hn, fileDecls]
  refine ⟨(Op.push :: multi inputText).map opText, ([Op.line "int solvable_pose = True;".toList, Op.line "// declare variables in solutions".toList] ++
    [Op.line (varDecl vars)] ++ [Op.line [], Op.line "// declare constant parameters (note they will need values!)".toList, Op.line []] ++
    params.map (fun p => Op.line (parDecl p)) ++ [Op.line []] ++ bs.flatten ++
    (multi packText ++ [Op.line "//(note trailing commas allowed in C++".toList, Op.line []]) ++ packRows 0 groups ++
    (multi "\n\n".toList ++ [Op.line "// return 1 for solved, 0 for no solution".toList, Op.line "return(solvable_pose);".toList, Op.pop])).map opText,
    by
      rw [← List.map_append]
      refine congrArg (List.map opText) ?_
      generalize multi inputText = A; generalize multi packText = B; generalize multi "\n\n".toList = C
      generalize packRows 0 groups = D; generalize bs.flatten = F
      simp only [List.append_assoc, List.cons_append, List.nil_append], ?_, ?_, ?_⟩
  · decide +kernel
  · decide +kernel
  · have fixed : ∀ L ∈ [[Op.line "int solvable_pose = True;".toList, Op.line "// declare variables in solutions".toList], [Op.line []], [Op.line [],
        Op.line "// declare constant parameters (note they will need values!)".toList, Op.line []], (multi packText ++
        [Op.line "//(note trailing commas allowed in C++".toList, Op.line []]), (multi "\n\n".toList ++
        [Op.line "// return 1 for solved, 0 for no solution".toList, Op.line "return(solvable_pose);".toList, Op.pop])], ∀ o ∈ L,
        (∀ x ∈ declares (opText o), Other x) ∧ ∀ x ∈ assigns (opText o), Other x := by decide +kernel
    intro l hl
    obtain ⟨o, hom, rfl⟩ := List.mem_map.1 hl
    rw [List.mem_append, List.mem_append, List.mem_append, List.mem_append, List.mem_append, List.mem_append, List.mem_append, List.mem_append] at hom
    rcases hom with (((((((hl | hl) | hl) | hl) | hl) | hl) | hl) | hl) | hl
    · exact fixed _ (by simp) o hl
    · rw [List.mem_singleton] at hl
      subst hl
      obtain ⟨d1, d2⟩ := line_varDecl hne fun v hvm => (hv v hvm).1
      have d1' : declares (opText (.line (varDecl vars))) = vars := d1
      have d2' : assigns (opText (.line (varDecl vars))) = [] := d2
      rw [d1', d2']
      exact ⟨fun x hx => (hv x hx).2, by simp⟩
    · exact fixed _ (by simp) o hl
    · obtain ⟨p, hpm, rfl⟩ := List.mem_map.1 hl
      obtain ⟨d1, d2⟩ := line_parDecl (hp p hpm).1
      have d1' : declares (opText (.line (parDecl p))) = [p] := d1
      have d2' : assigns (opText (.line (parDecl p))) = [] := d2
      rw [d1', d2']
      exact ⟨fun x hx => by rw [List.mem_singleton] at hx; rw [hx]; exact (hp p hpm).2, by simp⟩
    · exact fixed _ (by simp) o hl
    · rw [h3 o hl]
      refine ⟨by simp, fun x hx => ?_⟩
      rcases (h4 x).1 (List.mem_flatMap.2 ⟨o, hl, hx⟩) with ⟨_, _, rfl | rfl⟩ | ⟨r, hr⟩
      · decide +kernel
      · decide +kernel
      · obtain ⟨row, hrow, e, he, hxe⟩ := nodes_lhs h1 _ hr
        simp only at hxe
        rw [hxe]; exact ho row hrow e he
    · exact fixed _ (by simp) o hl
    · rw [(pack_lines groups 0 o hl).1, (pack_lines groups 0 o hl).2]; exact ⟨by simp, by simp⟩
    · exact fixed _ (by simp) o hl

/-- the hypotheses of `C80_cpp` -/
example : ∃ ops, cppFile "Rob".toList demoVars ["l_1".toList] demoCFileNodes demoMat demoGroups = some ops ∧ demoVars ≠ [] ∧ GoodNames demoMat ∧
    (∀ v ∈ demoVars, Ident v ∧ Other v) ∧ (∀ p ∈ ["l_1".toList], Ident p ∧ Other p) ∧ (∀ row ∈ demoMat, ∀ e ∈ row, Other e.1) := by
  obtain ⟨ops, h⟩ := Option.isSome_iff_exists.1 (by decide +kernel :
    (cppFile "Rob".toList demoVars ["l_1".toList] demoCFileNodes demoMat demoGroups).isSome = true)
  exact ⟨ops, h, by decide +kernel, goodNames_of (by decide +kernel), by unfold Ident; decide +kernel, by unfold Ident; decide +kernel, by decide +kernel⟩

/-- what the condition on names is for: with a parameter named `Px`, the function of the example replaces the entry of the target by the parameter -/
theorem C80_parameter_violation : ∃ file, pyFile "Arm".toList [("Px".toList, "5".toList)] ["Px".toList] demoFileNodes demoFileMat [] = some file ∧
    (file.filterMap pyAssign).filter (fun e => e.1 == "Px".toList) = [("Px".toList, "T[0,3]".toList), ("Px".toList, "5".toList)] := by
  have h : (pyFile "Arm".toList [("Px".toList, "5".toList)] ["Px".toList] demoFileNodes demoFileMat []).map
      (fun file => (file.filterMap pyAssign).filter (fun e => e.1 == "Px".toList)) = some [("Px".toList, "T[0,3]".toList), ("Px".toList, "5".toList)] := by
    decide +kernel
  obtain ⟨file, h1, h2⟩ := Option.map_eq_some_iff.1 h
  exact ⟨file, h1, h2⟩

end Verif.Main
