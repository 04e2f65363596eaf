import Verif.Sol.SetSolvedProps
/-!
# C63: `set_solved` does not depend on the order in which python iterates over its sets

`self.dependencies` (kin_cl.py:106) and `R.notation_graph_edges` (ik_classes.py:159) are python sets of objects that are hashed by their
names, so the order of iteration changes with the hash seed of the process. `setSolvedOrd` is `set_solved` with this order as a parameter.
-/
namespace Verif.Sol
open Verif.Sym

/-- kin_cl.py:153-200 `set_solved`, with the order of iteration of the set `self.dependencies` in lines 189 and 199 made explicit: `ord k l`
is the order in which the set with the members `l` is iterated at the `k`-th call. Otherwise as `setSolved`. -/
def setSolvedOrd (ord : Nat → List String → List String) (w : World) (x : String) : World × Option SErr :=
  let w := w.upd x fun u => { u with solved := true, nsolutions := u.solutions.length }
  if (w.unk x).nsolutions = 0 then (w, some .assertion)
  else
    let w := { w with solveN := w.solveN + 1 }
    let w := w.upd x fun u => { u with solveorder := w.solveN }
    match solLoop x 1 (w.unk x).solutions w with
    | (w, some e) => (w, some e)
    | (w, none) =>
      let w := { w with nodes := w.nodes ++ [x] }
      let nver := (ord w.solveN (w.unk x).deps).foldl (fun n d => n * (w.unk d).nsolutions)
        (w.unk x).solutions.length                                                         -- 188-190
      let w := w.upd x fun u => { u with
        nversions := nver
        versionNames := u.versionNames ++
          (List.range nver).map fun i => (u.solutionNames[i % u.nsolutions]?).getD (.s x 0) }
      ({ w with edges := (ord w.solveN (w.unk x).deps).foldl (fun s d => ins (x, d) s) w.edges }, none)   -- 199-200

/-- A run of the solver as far as `set_solved` sees it (as `runCalls`; kin_cl.py:153-200). -/
def runCallsOrd (ord : Nat → List String → List String) : World → List (String × List Expr) → World × Option SErr
  | w, [] => (w, none)
  | w, (x, sols) :: cs =>
    match setSolvedOrd ord (setSolutions w x sols) x with
    | (w, some e) => (w, some e)
    | (w, none) => runCallsOrd ord w cs

/-- The model of the other modules is the one that iterates in the order of insertion. -/
theorem setSolvedOrd_id (w : World) (x : String) : setSolvedOrd (fun _ l => l) w x = setSolved w x := rfl

/-- The same state, except for the order of the edges. -/
structure SameBut (w w' : World) : Prop where
  unknowns : w.unknowns = w'.unknowns
  unk : w.unk = w'.unk
  solveN : w.solveN = w'.solveN
  nodes : w.nodes = w'.nodes
  edges : w.edges.Perm w'.edges

theorem prod_perm (w : World) {l l' : List String} (h : l.Perm l') (n : Nat) :
    l.foldl (fun n d => n * (w.unk d).nsolutions) n = l'.foldl (fun n d => n * (w.unk d).nsolutions) n :=
  h.foldl_eq' (fun a _ b _ z => by simp only [Nat.mul_assoc, Nat.mul_comm (w.unk a).nsolutions]) n

theorem ins_perm {α : Type} [DecidableEq α] (a : α) {s s' : List α} (h : s.Perm s') : (ins a s).Perm (ins a s') := by
  unfold ins
  by_cases ha : a ∈ s
  · rw [if_pos ha, if_pos (h.mem_iff.1 ha)]; exact h
  · rw [if_neg ha, if_neg (fun h' => ha (h.mem_iff.2 h'))]; exact h.append_right _

theorem ins_comm {α : Type} [DecidableEq α] (a b : α) (s : List α) : (ins a (ins b s)).Perm (ins b (ins a s)) := by
  by_cases hab : a = b
  · subst hab; exact .refl _
  · unfold ins
    by_cases ha : a ∈ s <;> by_cases hb : b ∈ s <;>
      simp [ha, hb, hab, Ne.symm hab, List.perm_append_left_iff, List.Perm.swap]

theorem foldIns_perm (x : String) {l l' : List String} (h : l.Perm l') : ∀ {s s' : List (String × String)}, s.Perm s' →
    (l.foldl (fun s d => ins (x, d) s) s).Perm (l'.foldl (fun s d => ins (x, d) s) s') := by
  have cong : ∀ (l : List String) {s s' : List (String × String)}, s.Perm s' →
      (l.foldl (fun s d => ins (x, d) s) s).Perm (l.foldl (fun s d => ins (x, d) s) s') := by
    intro l
    induction l with
    | nil => intro s s' h; exact h
    | cons a l ih => intro s s' h; exact ih (ins_perm _ h)
  induction h with
  | nil => intro s s' hs; exact hs
  | cons a _ ih => intro s s' hs; exact ih (ins_perm _ hs)
  | swap a b l => intro s s' hs; exact cong l ((ins_comm _ _ _).trans (ins_perm _ (ins_perm _ hs)))
  | trans _ _ ih1 ih2 => intro s s' hs; exact (ih1 hs).trans (ih2 (.refl _))

/-- the loop over the solutions does not look at the edges -/
theorem solLoop_edges (x : String) (e : List (String × String)) : ∀ (sols : List Expr) (n : Nat) (w : World),
    solLoop x n sols { w with edges := e } = ({ (solLoop x n sols w).1 with edges := e }, (solLoop x n sols w).2)
  | [], n, w => rfl
  | sol :: sols, n, w => by
    simp only [solLoop]
    have hg : getDeps { w with edges := e } sol = getDeps w sol := rfl
    rw [hg]
    cases getDeps w sol with
    | error c => rfl
    | ok ds =>
      simp only
      rw [← solLoop_edges x e sols]
      rfl

theorem solLoop_keeps (x : String) : ∀ (sols : List Expr) (n : Nat) (w : World), (solLoop x n sols w).1.edges = w.edges
  | [], n, w => rfl
  | sol :: sols, n, w => by
    simp only [solLoop]
    cases getDeps w sol with
    | error c => rfl
    | ok ds => simp only; rw [solLoop_keeps x sols]; rfl

/-- kin_cl.py:154-177: `set_solved` up to the end of the first loop -/
def setSolvedPre (w : World) (x : String) : World × Option SErr :=
  let w := w.upd x fun u => { u with solved := true, nsolutions := u.solutions.length }
  if (w.unk x).nsolutions = 0 then (w, some .assertion)
  else
    let w := { w with solveN := w.solveN + 1 }
    let w := w.upd x fun u => { u with solveorder := w.solveN }
    solLoop x 1 (w.unk x).solutions w

/-- kin_cl.py:179-200: the rest -/
def setSolvedPost (l : List String) (w : World) (x : String) : World :=
  let w := { w with nodes := w.nodes ++ [x] }
  let nver := l.foldl (fun n d => n * (w.unk d).nsolutions) (w.unk x).solutions.length
  let w := w.upd x fun u => { u with
    nversions := nver
    versionNames := u.versionNames ++
      (List.range nver).map fun i => (u.solutionNames[i % u.nsolutions]?).getD (.s x 0) }
  { w with edges := l.foldl (fun s d => ins (x, d) s) w.edges }

theorem setSolvedOrd_eq (ord : Nat → List String → List String) (w : World) (x : String) :
    setSolvedOrd ord w x = match setSolvedPre w x with
      | (w, some e) => (w, some e)
      | (w, none) => (setSolvedPost (ord w.solveN (w.unk x).deps) w x, none) := by
  unfold setSolvedOrd setSolvedPre
  simp only
  split
  · rfl
  · generalize solLoop x 1 _ _ = r
    obtain ⟨w2, _ | e⟩ := r
    · simp [setSolvedPost, World.upd]
    · rfl

theorem setSolvedPre_edges (w : World) (x : String) (e : List (String × String)) :
    setSolvedPre { w with edges := e } x = ({ (setSolvedPre w x).1 with edges := e }, (setSolvedPre w x).2) := by
  unfold setSolvedPre
  simp only [World.upd, if_true]
  by_cases h : (w.unk x).solutions.length = 0
  · rw [if_pos h, if_pos h]
  · rw [if_neg h, if_neg h]
    exact solLoop_edges x e _ _ { w with
      solveN := w.solveN + 1
      unk := fun n => if n = x then { (if n = x then { w.unk n with solved := true, nsolutions := (w.unk n).solutions.length } else w.unk n) with solveorder := w.solveN + 1 } else if n = x then { w.unk n with solved := true, nsolutions := (w.unk n).solutions.length } else w.unk n }

theorem setSolvedPre_keeps (w : World) (x : String) : (setSolvedPre w x).1.edges = w.edges := by
  unfold setSolvedPre
  simp only [World.upd, if_true]
  by_cases h : (w.unk x).solutions.length = 0
  · rw [if_pos h]
  · rw [if_neg h]
    exact solLoop_keeps x _ _ _

/-- One call. -/
theorem setSolvedOrd_same {ord : Nat → List String → List String} (hord : ∀ k l, (ord k l).Perm l) {w w' : World}
    (h : SameBut w w') (x : String) :
    SameBut (setSolvedOrd ord w x).1 (setSolved w' x).1 ∧ (setSolvedOrd ord w x).2 = (setSolved w' x).2 := by
  obtain ⟨us, un, sn, ns, es⟩ := w
  obtain ⟨us', un', sn', ns', es'⟩ := w'
  obtain ⟨h1, h2, h3, h4, h5⟩ := h
  simp only at h1 h2 h3 h4 h5
  subst h1 h2 h3 h4
  rw [← setSolvedOrd_id, setSolvedOrd_eq, setSolvedOrd_eq]
  have he := setSolvedPre_edges ⟨us, un, sn, ns, es⟩ x es'
  have hk := setSolvedPre_keeps ⟨us, un, sn, ns, es⟩ x
  simp only at he hk
  rw [he]
  rcases hP : setSolvedPre ⟨us, un, sn, ns, es⟩ x with ⟨W, _ | e⟩
  · rw [hP] at hk
    have hk : W.edges = es := hk
    refine ⟨⟨rfl, ?_, rfl, rfl, ?_⟩, by rfl⟩
    · simp only [setSolvedPost, World.upd]
      rw [prod_perm { W with nodes := W.nodes ++ [x] } (hord W.solveN (W.unk x).deps)]
    · simp only [setSolvedPost, World.upd, hk]
      exact foldIns_perm x (hord _ _) h5
  · rw [hP] at hk
    have hk : W.edges = es := hk
    exact ⟨⟨rfl, rfl, rfl, rfl, by show W.edges.Perm es'; rw [hk]; exact h5⟩, by rfl⟩

theorem runCallsOrd_same {ord : Nat → List String → List String} (hord : ∀ k l, (ord k l).Perm l) :
    ∀ (cs : List (String × List Expr)) {w w' : World}, SameBut w w' →
      SameBut (runCallsOrd ord w cs).1 (runCalls w' cs).1 ∧ (runCallsOrd ord w cs).2 = (runCalls w' cs).2
  | [], w, w', h => ⟨h, rfl⟩
  | (x, sols) :: cs, w, w', h => by
    have h0 : SameBut (setSolutions w x sols) (setSolutions w' x sols) :=
      ⟨h.unknowns, by simp only [setSolutions, World.upd, h.unk], h.solveN, h.nodes, h.edges⟩
    obtain ⟨h1, h2⟩ := setSolvedOrd_same hord h0 x
    simp only [runCallsOrd, runCalls]
    rcases hA : setSolvedOrd ord (setSolutions w x sols) x with ⟨A, a⟩
    rcases hB : setSolved (setSolutions w' x sols) x with ⟨B, b⟩
    rw [hA, hB] at h1 h2
    simp only at h1 h2
    subst h2
    cases a with
    | some e => exact ⟨h1, rfl⟩
    | none => exact runCallsOrd_same hord cs h1

/-- **C63, solution graph.** However python orders its sets (two orders `o`, `o'`, which may differ from call to call): the same calls of
`set_solved` raise the same exception or none, give every unknown the same fields (solve order, solution names, dependencies, number and names
of its versions), the same sequence of nodes, and the same set of edges. -/
theorem C63_set_solved {o o' : Nat → List String → List String} (ho : ∀ k l, (o k l).Perm l) (ho' : ∀ k l, (o' k l).Perm l)
    (unknowns : List String) (cs : List (String × List Expr)) :
    (runCallsOrd o (start unknowns) cs).2 = (runCallsOrd o' (start unknowns) cs).2 ∧
    (∀ x, (runCallsOrd o (start unknowns) cs).1.unk x = (runCallsOrd o' (start unknowns) cs).1.unk x) ∧
    (runCallsOrd o (start unknowns) cs).1.solveN = (runCallsOrd o' (start unknowns) cs).1.solveN ∧
    (runCallsOrd o (start unknowns) cs).1.nodes = (runCallsOrd o' (start unknowns) cs).1.nodes ∧
    ∀ e, e ∈ (runCallsOrd o (start unknowns) cs).1.edges ↔ e ∈ (runCallsOrd o' (start unknowns) cs).1.edges := by
  have h0 : SameBut (start unknowns) (start unknowns) := ⟨rfl, rfl, rfl, rfl, .refl _⟩
  obtain ⟨a, a'⟩ := runCallsOrd_same ho cs h0
  obtain ⟨b, b'⟩ := runCallsOrd_same ho' cs h0
  exact ⟨a'.trans b'.symm, fun x => by rw [a.unk, b.unk], a.solveN.trans b.solveN.symm, a.nodes.trans b.nodes.symm,
    fun e => (a.edges.trans b.edges.symm).mem_iff⟩

/-- A concrete case: `z` depends on `x` (two solutions) and `y`; iterating in reverse order gives the edges in another order, everything else is the
same, and nothing is raised. -/
example : let cs := [("x", [.sym "a", .sym "b"]), ("y", [.sym "x"]), ("z", [.bin .add (.sym "x") (.sym "y")])]
    ((runCallsOrd (fun _ l => l) (start ["x", "y", "z"]) cs).1.edges, (runCallsOrd (fun _ l => l.reverse) (start ["x", "y", "z"]) cs).1.edges,
      ((runCallsOrd (fun _ l => l.reverse) (start ["x", "y", "z"]) cs).1.unk "z").nversions,
      (runCallsOrd (fun _ l => l.reverse) (start ["x", "y", "z"]) cs).2) =
    ([("y", "x"), ("z", "x"), ("z", "y")], [("y", "x"), ("z", "y"), ("z", "x")], 2, none) := by decide +kernel

end Verif.Sol
