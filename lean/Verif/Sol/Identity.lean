import Verif.Sol.SetSolvedProps
/-!
# C73: equality, hash and order of `unknown`, `Node` and `Edge` objects

Model of `__eq__`, `__hash__` of `unknown` (ikbtbasics/kin_cl.py:123-130) and of `Node` and `Edge`
(ikbtbasics/solutionGraphV3.py:28-78), and of python sets of such objects.
-/
namespace Verif.Sol.Identity
open Verif.Sol

/-- Python objects, with their identity: None, an `unknown` (kin_cl.py:88), a `Node` (solutionGraphV3.py:28; it keeps the
identity of its unknown), or any other object without an attribute `symbol` whose own `__eq__` does not know these classes. -/
inductive Obj where
  | none
  | unk (id : Nat) (symbol : String)
  | node (id : Nat) (symbol : String) (unknown : Nat)
  | other (id : Nat)
  deriving DecidableEq, Repr

/-- the attribute `symbol`; AttributeError if there is none -/
def Obj.symbol? : Obj → Option String
  | .unk _ s | .node _ s _ => some s
  | .none | .other _ => Option.none

inductive Err where | attribute
  deriving DecidableEq, Repr

/-- kin_cl.py:123-126 and solutionGraphV3.py:51-54, `__eq__` of an object with the symbol `s`: `other != None` first, then
the symbols. -/
def eqSym (s : String) (o : Obj) : Except Err Bool :=
  match o with
  | .none => .ok false
  | o => match o.symbol? with
    | Option.none => .error .attribute
    | some t => .ok (s == t)

/-- python's `a == b`. An object of another class does not know `unknown` and `Node`, so python asks the right operand. -/
def pyEq (a b : Obj) : Except Err Bool :=
  match a.symbol?, b.symbol? with
  | some s, _ => eqSym s b
  | Option.none, some t => eqSym t a
  | Option.none, Option.none => .ok (decide (a = b))

/-- kin_cl.py:128-129, solutionGraphV3.py:56-57: the hash is that of the symbol (`h`); `k` for objects of other classes -/
def pyHash (h : String → Int) (k : Obj → Int) (o : Obj) : Int :=
  match o.symbol? with
  | some s => h s
  | Option.none => k o

/-- solutionGraphV3.py:64-70 -/
structure Edge where
  start : Obj
  dependsOn : Obj
  mult : Int := 1
  deriving DecidableEq, Repr

/-- solutionGraphV3.py:74-75: `and` stops at the first false comparison -/
def edgeEq (a b : Edge) : Except Err Bool := do
  if ← pyEq a.start b.start then
    if ← pyEq a.dependsOn b.dependsOn then return decide (a.mult = b.mult) else return false
  else return false

/-- solutionGraphV3.py:77-78; the hash of a small integer is itself -/
def edgeHash (h : String → Int) (k : Obj → Int) (e : Edge) : Int := pyHash h k e.start * pyHash h k e.dependsOn + e.mult

/-! ### Python sets (not code of the repository: what the language does with `__hash__` and `__eq__`) -/

/-- python's lookup in a set: the stored objects with the same hash are compared; identity counts as equality -/
def lookup {α : Type} [DecidableEq α] (hash : α → Int) (eq : α → α → Except Err Bool) (x : α) : List α → Except Err Bool
  | [] => .ok false
  | y :: ys =>
    if hash y = hash x then
      if y = x then .ok true
      else match eq y x with
        | .error e => .error e
        | .ok true => .ok true
        | .ok false => lookup hash eq x ys
    else lookup hash eq x ys

/-- `set.add` -/
def add {α : Type} [DecidableEq α] (hash : α → Int) (eq : α → α → Except Err Bool) (s : List α) (x : α) : Except Err (List α) :=
  match lookup hash eq x s with
  | .error e => .error e
  | .ok true => .ok s
  | .ok false => .ok (s ++ [x])

/-- a history of `add`s on an empty set -/
def addAll {α : Type} [DecidableEq α] (hash : α → Int) (eq : α → α → Except Err Bool) : List α → List α → Except Err (List α)
  | s, [] => .ok s
  | s, x :: xs => match add hash eq s x with
    | .error e => .error e
    | .ok s => addAll hash eq s xs

/-! ## Equality and hash -/

/-- an `unknown` or a `Node` with this symbol -/
def Names (o : Obj) (s : String) : Prop := o.symbol? = some s

/-- C73: two objects that are unknowns or nodes are equal iff they have the same symbol, whatever their identity, class and
state. -/
theorem C73_eq_iff {a b : Obj} {s t : String} (ha : Names a s) (hb : Names b t) : pyEq a b = .ok (decide (s = t)) := by
  unfold Names at ha hb
  unfold pyEq
  rw [ha]
  cases b with
  | none => cases hb
  | other => cases hb
  | unk i u => cases hb; rfl
  | node i u j => cases hb; rfl

/-- C73: comparing with None gives False, on both sides, and never raises. -/
theorem C73_none {a : Obj} {s : String} (ha : Names a s) : pyEq a .none = .ok false ∧ pyEq .none a = .ok false := by
  cases a with
  | none => cases ha
  | other => cases ha
  | unk j t => exact ⟨rfl, rfl⟩
  | node j t l => exact ⟨rfl, rfl⟩

/-- C73: on unknowns and nodes `==` is reflexive, symmetric and transitive, and equal objects have equal hashes. -/
theorem C73_equivalence {a b c : Obj} {s t u : String} (ha : Names a s) (hb : Names b t) (hc : Names c u)
    (h : String → Int) (k : Obj → Int) :
    pyEq a a = .ok true ∧ pyEq a b = pyEq b a ∧ (pyEq a b = .ok true → pyEq b c = .ok true → pyEq a c = .ok true) ∧
    (pyEq a b = .ok true → pyHash h k a = pyHash h k b) := by
  rw [C73_eq_iff ha ha, C73_eq_iff ha hb, C73_eq_iff hb ha, C73_eq_iff hb hc, C73_eq_iff ha hc]
  refine ⟨by simp, by simp [eq_comm], ?_, ?_⟩
  · intro h1 h2; simp only [Except.ok.injEq, decide_eq_true_eq] at h1 h2 ⊢; rw [h1, h2]
  · intro h1
    simp only [Except.ok.injEq, decide_eq_true_eq] at h1
    unfold Names at ha hb
    simp only [pyHash, ha, hb, h1]

/-- an edge between unknowns or nodes -/
def EdgeNames (e : Edge) (s t : String) : Prop := Names e.start s ∧ Names e.dependsOn t

/-- C73: two edges are equal iff they join the same symbols in the same direction with the same multiplicity; equal edges
have equal hashes. -/
theorem C73_edge {e f : Edge} {s t s' t' : String} (he : EdgeNames e s t) (hf : EdgeNames f s' t')
    (h : String → Int) (k : Obj → Int) :
    edgeEq e f = .ok (decide (s = s' ∧ t = t' ∧ e.mult = f.mult)) ∧
    (edgeEq e f = .ok true → edgeHash h k e = edgeHash h k f) := by
  have key : edgeEq e f = .ok (decide (s = s' ∧ t = t' ∧ e.mult = f.mult)) := by
    unfold edgeEq
    rw [C73_eq_iff he.1 hf.1, C73_eq_iff he.2 hf.2]
    by_cases h1 : s = s' <;> by_cases h2 : t = t' <;> simp [h1, h2, bind, Except.bind, pure, Except.pure]
  refine ⟨key, fun h' => ?_⟩
  rw [key] at h'
  simp only [Except.ok.injEq, decide_eq_true_eq] at h'
  obtain ⟨h1, h2, h3⟩ := h'
  have e1 := he.1; have e2 := he.2; have f1 := hf.1; have f2 := hf.2
  unfold Names at e1 e2 f1 f2
  simp only [edgeHash, pyHash, e1, e2, f1, f2, h1, h2, h3]

/-! ## Sets -/

/-- A key decides equality and hashes, on the objects satisfying `P`. -/
structure Keyed {α κ : Type} [DecidableEq α] [DecidableEq κ] (hash : α → Int) (eq : α → α → Except Err Bool) (P : α → Prop)
    (key : α → κ) : Prop where
  eq_iff : ∀ a b, P a → P b → eq a b = .ok (decide (key a = key b))
  hash_eq : ∀ a b, P a → P b → key a = key b → hash a = hash b

variable {α κ : Type} [DecidableEq α] [DecidableEq κ] {hash : α → Int} {eq : α → α → Except Err Bool} {P : α → Prop} {key : α → κ}

theorem Keyed.lookup (K : Keyed hash eq P key) {x : α} (hx : P x) : ∀ {l : List α}, (∀ y ∈ l, P y) →
    lookup hash eq x l = .ok (decide (key x ∈ l.map key))
  | [], _ => rfl
  | y :: ys, h => by
    have hy := h y (by simp)
    have ih := K.lookup hx (l := ys) (fun z hz => h z (by simp [hz]))
    rw [Identity.lookup]
    by_cases hk : key x = key y
    · rw [if_pos (K.hash_eq y x hy hx hk.symm), K.eq_iff y x hy hx]
      by_cases he : y = x
      · simp [he]
      · rw [if_neg he]; simp [hk]
    · have hne : y ≠ x := by rintro rfl; exact hk rfl
      rw [K.eq_iff y x hy hx, if_neg hne, ih]
      have : decide (key y = key x) = false := by simpa using fun h => hk h.symm
      simp only [this, ite_self, List.map_cons, List.mem_cons, hk, false_or]

theorem Keyed.addAll (K : Keyed hash eq P key) : ∀ (xs s : List α), (∀ y ∈ s, P y) → (∀ y ∈ xs, P y) →
    ∃ s', addAll hash eq s xs = .ok s' ∧ (∀ y ∈ s', P y) ∧ s'.map key = xs.foldl (fun l x => ins (key x) l) (s.map key) ∧
      ∀ y ∈ s', y ∈ s ∨ y ∈ xs
  | [], s, hs, _ => ⟨s, rfl, hs, rfl, fun y h => .inl h⟩
  | x :: xs, s, hs, hxs => by
    have hx := hxs x (by simp)
    rw [Identity.addAll, add, K.lookup hx hs]
    by_cases hm : key x ∈ s.map key
    · obtain ⟨s', h1, h2, h3, h4⟩ := K.addAll xs s hs (fun y hy => hxs y (by simp [hy]))
      refine ⟨s', by simpa [hm] using h1, h2, ?_, fun y hy => ?_⟩
      · rw [h3, List.foldl_cons]; simp only [ins, if_pos hm]
      · rcases h4 y hy with h | h
        · exact .inl h
        · exact .inr (by simp [h])
    · obtain ⟨s', h1, h2, h3, h4⟩ := K.addAll xs (s ++ [x]) (by
        intro y hy
        rcases List.mem_append.1 hy with h | h
        · exact hs y h
        · simp at h; rw [h]; exact hx) (fun y hy => hxs y (by simp [hy]))
      refine ⟨s', by rw [decide_eq_false hm]; exact h1, h2, ?_, fun y hy => ?_⟩
      · rw [h3, List.foldl_cons, List.map_append]; simp only [ins, if_neg hm, List.map_cons, List.map_nil]
      · rcases h4 y hy with h | h
        · rcases List.mem_append.1 h with h | h
          · exact .inl h
          · simp at h; exact .inr (by simp [h])
        · exact .inr (by simp [h])

/-- the symbol of an unknown or node ("" for others) -/
def symbolOf (o : Obj) : String := (o.symbol?).getD ""

theorem keyedObj (h : String → Int) (k : Obj → Int) : Keyed (pyHash h k) pyEq (fun o => ∃ s, Names o s) symbolOf where
  eq_iff := by
    rintro a b ⟨s, hs⟩ ⟨t, ht⟩
    rw [C73_eq_iff hs ht]
    unfold Names at hs ht
    simp [symbolOf, hs, ht]
  hash_eq := by
    rintro a b ⟨s, hs⟩ ⟨t, ht⟩ he
    unfold Names at hs ht
    simp only [symbolOf, hs, ht, Option.getD_some] at he
    simp only [pyHash, hs, ht, he]

/-- C73: sets of unknowns and nodes (such as `dependencies`), after any history of additions, whatever the hash function of
the symbols: no exception; no two members have the same symbol; a membership test is true exactly for the objects whose
symbol was added. -/
theorem C73_sets (h : String → Int) (k : Obj → Int) (xs : List Obj) (hx : ∀ x ∈ xs, ∃ s, Names x s) :
    ∃ S, addAll (pyHash h k) pyEq [] xs = .ok S ∧ (S.map symbolOf).Nodup ∧ (∀ y ∈ S, y ∈ xs) ∧
      ∀ a s, Names a s → ∃ b, lookup (pyHash h k) pyEq a S = .ok b ∧ (b = true ↔ ∃ x ∈ xs, Names x s) := by
  have K := keyedObj h k
  obtain ⟨S, h1, h2, h3, h4⟩ := K.addAll xs [] (by simp) hx
  refine ⟨S, h1, ?_, fun y hy => by simpa using h4 y hy, ?_⟩
  · rw [h3]; exact nodup_fold_ins symbolOf xs _ (by simp)
  · intro a s ha
    refine ⟨_, K.lookup ⟨s, ha⟩ h2, ?_⟩
    rw [h3, decide_eq_true_eq, mem_fold_ins symbolOf xs]
    have ha' : symbolOf a = s := by unfold Names at ha; simp [symbolOf, ha]
    simp only [List.map_nil, List.not_mem_nil, false_or, ha']
    constructor
    · rintro ⟨x, hm, he⟩
      obtain ⟨t, ht⟩ := hx x hm
      refine ⟨x, hm, ?_⟩
      have ht' := ht
      unfold Names at ht'
      simp only [symbolOf, ht', Option.getD_some] at he
      subst he; exact ht
    · rintro ⟨x, hm, he⟩
      refine ⟨x, hm, ?_⟩
      unfold Names at he
      simp [symbolOf, he]

def edgeKey (e : Edge) : String × String × Int := (symbolOf e.start, symbolOf e.dependsOn, e.mult)

theorem keyedEdge (h : String → Int) (k : Obj → Int) : Keyed (edgeHash h k) edgeEq (fun e => ∃ s t, EdgeNames e s t) edgeKey where
  eq_iff := by
    rintro a b ⟨s, t, hs⟩ ⟨s', t', ht⟩
    rw [(C73_edge hs ht h k).1]
    have e1 := hs.1; have e2 := hs.2; have f1 := ht.1; have f2 := ht.2
    unfold Names at e1 e2 f1 f2
    simp [edgeKey, symbolOf, e1, e2, f1, f2]
  hash_eq := by
    rintro a b ⟨s, t, hs⟩ ⟨s', t', ht⟩ he
    have e1 := hs.1; have e2 := hs.2; have f1 := ht.1; have f2 := ht.2
    unfold Names at e1 e2 f1 f2
    simp only [edgeKey, symbolOf, e1, e2, f1, f2, Option.getD_some, Prod.mk.injEq] at he
    obtain ⟨h1, h2, h3⟩ := he
    simp only [edgeHash, pyHash, e1, e2, f1, f2, h1, h2, h3]

/-- C73: the set `notation_graph_edges`: after adding `Edge(u, d)` for any history of pairs of unknowns it holds each
(symbol, symbol) pair exactly once, in particular the pairs that `set_solved` is modelled to add. -/
theorem C73_edges (h : String → Int) (k : Obj → Int) (ps : List (Obj × Obj))
    (hp : ∀ p ∈ ps, (∃ s, Names p.1 s) ∧ ∃ t, Names p.2 t) :
    ∃ S, addAll (edgeHash h k) edgeEq [] (ps.map fun p => ({ start := p.1, dependsOn := p.2 } : Edge)) = .ok S ∧
      (S.map fun e => (symbolOf e.start, symbolOf e.dependsOn)) =
        ps.foldl (fun l p => ins (symbolOf p.1, symbolOf p.2) l) [] ∧
      (S.map fun e => (symbolOf e.start, symbolOf e.dependsOn)).Nodup := by
  have K := keyedEdge h k
  obtain ⟨S, h1, _, h3, h4⟩ := K.addAll (ps.map fun p => ({ start := p.1, dependsOn := p.2 } : Edge)) [] (by simp) (by
    intro e he
    obtain ⟨p, hpm, rfl⟩ := List.mem_map.1 he
    obtain ⟨⟨s, hs⟩, ⟨t, ht⟩⟩ := hp p hpm
    exact ⟨s, t, hs, ht⟩)
  have main : (S.map fun e => (symbolOf e.start, symbolOf e.dependsOn)) =
        ps.foldl (fun l p => ins (symbolOf p.1, symbolOf p.2) l) [] := by
    have h5 : ∀ (ps : List (Obj × Obj)) (l : List (String × String)),
        (ps.map fun p => ({ start := p.1, dependsOn := p.2 } : Edge)).foldl (fun l x => ins (edgeKey x) l)
          (l.map fun q => (q.1, q.2, (1 : Int))) =
        (ps.foldl (fun l p => ins (symbolOf p.1, symbolOf p.2) l) l).map fun q => (q.1, q.2, (1 : Int)) := by
      intro ps
      induction ps with
      | nil => intro l; rfl
      | cons p ps ih =>
        intro l
        simp only [List.map_cons, List.foldl_cons]
        rw [← ih]
        congr 1
        unfold ins edgeKey
        by_cases hm : (symbolOf p.1, symbolOf p.2) ∈ l
        · rw [if_pos hm, if_pos (List.mem_map.2 ⟨_, hm, rfl⟩)]
        · rw [if_neg hm, if_neg]
          · simp
          · intro hc
            obtain ⟨q, hq, he⟩ := List.mem_map.1 hc
            cases q
            simp only [Prod.mk.injEq, and_true] at he
            obtain ⟨rfl, rfl⟩ := he
            exact hm hq
    have h6 := h5 ps []
    simp only [List.map_nil] at h6 h3
    rw [h6] at h3
    have h7 : (S.map fun e => (symbolOf e.start, symbolOf e.dependsOn)) =
        (S.map edgeKey).map fun q => (q.1, q.2.1) := by simp [edgeKey, Function.comp_def]
    rw [h7, h3]
    simp [Function.comp_def]
  refine ⟨S, h1, main, ?_⟩
  rw [main]
  exact nodup_fold_ins (fun p : Obj × Obj => (symbolOf p.1, symbolOf p.2)) ps _ (by simp)

/-- Non-vacuity: two objects for th_1, a node of it, and th_2, with a constant hash function. -/
example : (addAll (pyHash (fun _ => 7) fun _ => 0) pyEq [] [.unk 0 "th_1", .unk 1 "th_2", .unk 2 "th_1", .node 3 "th_1" 2]).toOption =
    some [.unk 0 "th_1", .unk 1 "th_2"] := by decide +kernel

example : ∀ x ∈ [Obj.unk 0 "th_1", .unk 1 "th_2", .unk 2 "th_1", .node 3 "th_1" 2], ∃ s, Names x s := by
  intro x hx
  simp only [List.mem_cons, List.not_mem_nil, or_false] at hx
  rcases hx with rfl | rfl | rfl | rfl <;> exact ⟨_, rfl⟩

/-! ## Violations -/

/-- C73 is false of the code (1): comparing an unknown or a node with an object of another class does not give False but
raises AttributeError, on either side; so does a membership test in a list that contains such an object. -/
theorem C73_foreign_violation {a : Obj} {s : String} (ha : Names a s) (i : Nat) :
    pyEq a (.other i) = .error .attribute ∧ pyEq (.other i) a = .error .attribute := by
  cases a with
  | none => cases ha
  | other => cases ha
  | unk j t => exact ⟨rfl, rfl⟩
  | node j t l => exact ⟨rfl, rfl⟩

/-- C73 is false of the code (2): in a set, whether the exception is raised depends on the hash function of the symbols, which
python chooses anew in every process: the same two additions succeed under one and raise under another. -/
theorem C73_hash_seed_violation :
    (addAll (pyHash (fun _ => 1) fun _ => 0) pyEq [] [.unk 0 "th_1", .other 5]).toOption = some [.unk 0 "th_1", .other 5] ∧
    (addAll (pyHash (fun _ => 0) fun _ => 0) pyEq [] [.unk 0 "th_1", .other 5]).toOption = Option.none := by decide +kernel

/-! ### The order of nodes -/

/-- solutionGraphV3.py:30-43: a new `Node` has `solveorder` -1, whatever the `solveorder` of its unknown (`order`) -/
structure NodeObj where
  name : String
  order : Nat
  solveorder : Int := -1
  deriving DecidableEq, Repr

/-- solutionGraphV3.py:48-49 -/
def NodeObj.lt (a b : NodeObj) : Bool := decide (a.solveorder < b.solveorder)

/-- insertion into a sorted list behind everything that is not greater (python's sort is stable and uses `<` only) -/
def insertNode (x : NodeObj) : List NodeObj → List NodeObj
  | [] => [x]
  | y :: ys => if x.lt y then x :: y :: ys else y :: insertNode x ys

/-- `sorted(nodes)` as a stable sort -/
def sortNodes : List NodeObj → List NodeObj → List NodeObj
  | acc, [] => acc
  | acc, x :: xs => sortNodes (insertNode x acc) xs

/-- C73 is false of the code (3): sorting nodes does nothing. No node is ever smaller than another, so every list of new nodes
is returned in its old order, whatever the order in which the unknowns were solved. -/
theorem C73_sort_violation (us : List (String × Nat)) :
    let nodes : List NodeObj := us.map fun u => { name := u.1, order := u.2 }
    sortNodes [] nodes = nodes ∧ ∀ a ∈ nodes, ∀ b ∈ nodes, a.lt b = false := by
  have hlt : ∀ a ∈ (us.map fun u => ({ name := u.1, order := u.2 } : NodeObj)),
      ∀ b ∈ (us.map fun u => ({ name := u.1, order := u.2 } : NodeObj)), a.lt b = false := by
    intro a ha b hb
    obtain ⟨u, _, rfl⟩ := List.mem_map.1 ha
    obtain ⟨v, _, rfl⟩ := List.mem_map.1 hb
    simp [NodeObj.lt]
  refine ⟨?_, hlt⟩
  have hins : ∀ (x : NodeObj) (l : List NodeObj), (∀ y ∈ l, x.lt y = false) → insertNode x l = l ++ [x] := by
    intro x l
    induction l with
    | nil => intro _; rfl
    | cons y ys ih =>
      intro h
      rw [insertNode, h y (by simp)]
      simp [ih fun z hz => h z (by simp [hz])]
  have hsort : ∀ (xs acc : List NodeObj), (∀ a ∈ acc ++ xs, ∀ b ∈ acc ++ xs, a.lt b = false) → sortNodes acc xs = acc ++ xs := by
    intro xs
    induction xs with
    | nil => intro acc _; simp [sortNodes]
    | cons x xs ih =>
      intro acc h
      rw [sortNodes, hins x acc fun y hy => h x (by simp) y (by simp [hy]), ih]
      · simp
      · simpa using h
  simpa using hsort _ [] (by simpa using hlt)

/-- an instance where the result is not in solving order -/
example : sortNodes [] [{ name := "th_2", order := 2 }, { name := "th_1", order := 1 }] =
    [{ name := "th_2", order := 2 }, { name := "th_1", order := 1 }] := by decide +kernel

end Verif.Sol.Identity
