import Verif.Out.CppLine
/-!
# C74: the drawing of a solution graph

Model of `newnode` and `tikz_place_children` (ikbtfunctions/graph2latex.py:33-61, 101-110).
-/
namespace Verif.Out.Tikz
open Verif.Out

/-- A graph of `newnode` objects (graph2latex.py:33-40): the objects are numbered; the lists `children` and `parents` are kept
separately in the code, so nothing makes them agree. `label` is `sp.latex(symbol).replace('th_', '\theta_')` (line 105). -/
structure Graph where
  children : Nat → List Nat
  parents : Nat → List Nat
  label : Nat → Text

/-- graph2latex.py:106-108: the loop over the children; `f` is the recursive call -/
def loop (f : Nat → Option (List Text)) : List Nat → Option (List Text)
  | [] => some []
  | c :: cs =>
    match f c, loop f cs with
    | some a, some b => some ("   ".toList :: a ++ b)                               -- 107, 108
    | _, _ => none

/-- graph2latex.py:101-110 `tikz_place_children`: the lines printed to the file; `none` is RecursionError, when more than
`depth` calls are nested. The line printed to the terminal (103) is left out. -/
def place (g : Graph) : Nat → Nat → Option (List Text)
  | 0, _ => none
  | depth + 1, n =>
    match loop (place g depth) (g.children n) with                                  -- 106-108
    | none => none
    | some ls =>
      if (g.parents n).length > 0 then                                              -- 104, 109
        some (["child { node {$".toList ++ g.label n ++ "$}  ".toList] ++ ls ++ ["}".toList])   -- 105, 110
      else some ls

/-! ## Specification: reading a drawing back -/

/-- a drawing: nested `child { node {…} … }` -/
inductive Drawn where
  | node (label : Text) (kids : List Drawn)

/-- what a line says -/
inductive Tok where
  | start (label : Text)
  | stop
  | blank
  deriving DecidableEq

/-- the text between a fixed beginning and a fixed end -/
def between (pre suf t : Text) : Option Text :=
  if pre.isPrefixOf t && suf.isSuffixOf t && decide (pre.length + suf.length ≤ t.length) then
    some ((t.drop pre.length).take (t.length - pre.length - suf.length))
  else none

def readLine (l : Text) : Option Tok :=
  if l = "}".toList then some .stop
  else if l = "   ".toList then some .blank
  else (between "child { node {$".toList "$}  ".toList l).map .start

/-- an LL reader: `cur` are the trees read at the current level, `stack` the open nodes with the trees before them -/
def read : List Drawn → List (Text × List Drawn) → List Text → Option (List Drawn)
  | cur, [], [] => some cur
  | _, _ :: _, [] => none
  | cur, stack, l :: ls =>
    match readLine l, stack with
    | some (.start lab), stack => read [] ((lab, cur) :: stack) ls
    | some .stop, (lab, before) :: stack => read (before ++ [.node lab cur]) stack ls
    | some .stop, [] => none
    | some .blank, stack => read cur stack ls
    | none, _ => none

/-- the drawing `t` shows the node `n` with everything below it -/
inductive Shows (g : Graph) : Nat → Drawn → Prop where
  | mk (n : Nat) (kids : List Drawn) (h : List.Forall₂ (Shows g) (g.children n) kids) : Shows g n (.node (g.label n) kids)

/-- `m` can be reached from `n` in one or more steps to children -/
inductive Below (g : Graph) (n : Nat) : Nat → Prop where
  | child {c} (h : c ∈ g.children n) : Below g n c
  | step {m c} (h : Below g n m) (hc : c ∈ g.children m) : Below g n c

/-- a path of `k` steps to children starts at `n` -/
inductive Path (g : Graph) : Nat → Nat → Prop where
  | here (n : Nat) : Path g n 0
  | step {n c k : Nat} (h : c ∈ g.children n) (hp : Path g c k) : Path g n (k + 1)

/-! ## Lemmas -/

theorem between_eq (pre suf lab : Text) : between pre suf (pre ++ lab ++ suf) = some lab := by
  unfold between
  rw [if_pos]
  · simp [List.append_assoc]
  · rw [Bool.and_eq_true, Bool.and_eq_true]
    refine ⟨⟨?_, ?_⟩, ?_⟩
    · rw [List.isPrefixOf_iff_prefix, List.append_assoc]; exact List.prefix_append _ _
    · rw [List.isSuffixOf_iff_suffix]; exact List.suffix_append _ _
    · rw [decide_eq_true_iff, List.length_append, List.length_append]; omega

theorem readLine_start (lab : Text) : readLine ("child { node {$".toList ++ lab ++ "$}  ".toList) = some (.start lab) := by
  unfold readLine
  rw [if_neg, if_neg, between_eq]
  · rfl
  · intro h; have := congrArg List.head? h; simp at this
  · intro h; have := congrArg List.head? h; simp at this

theorem readLine_stop : readLine "}".toList = some .stop := rfl
theorem readLine_blank : readLine "   ".toList = some .blank := rfl

theorem read_start {l lab : Text} (h : readLine l = some (.start lab)) (cur stack ls) :
    read cur stack (l :: ls) = read [] ((lab, cur) :: stack) ls := by
  cases stack <;> (rw [read.eq_def]; simp only [h])
theorem read_blank {l : Text} (h : readLine l = some .blank) (cur stack ls) : read cur stack (l :: ls) = read cur stack ls := by
  cases stack <;> (rw [read.eq_def]; simp only [h])
theorem read_stop {l : Text} (h : readLine l = some .stop) (cur lab before stack ls) :
    read cur ((lab, before) :: stack) (l :: ls) = read (before ++ [.node lab cur]) stack ls := by
  rw [read.eq_def]; simp only [h]

theorem Below.above {g : Graph} {n c m : Nat} (hc : c ∈ g.children n) (h : Below g c m) : Below g n m := by
  induction h with
  | child h => exact .step (.child hc) h
  | step _ h ih => exact .step ih h

/-- Reading what the loop printed gives one tree for each child. -/
theorem loop_read {g : Graph} {f : Nat → Option (List Text)} : ∀ (cs : List Nat) (ls : List Text), loop f cs = some ls →
    (∀ c ∈ cs, ∀ a, f c = some a → ∃ t, Shows g c t ∧ ∀ cur stack rest, read cur stack (a ++ rest) = read (cur ++ [t]) stack rest) →
    ∃ ts, List.Forall₂ (Shows g) cs ts ∧ ∀ cur stack rest, read cur stack (ls ++ rest) = read (cur ++ ts) stack rest
  | [], ls, h, _ => by
    simp only [loop, Option.some.injEq] at h
    subst h
    exact ⟨[], .nil, by simp⟩
  | c :: cs, ls, h, hb => by
    rw [loop] at h
    cases ha : f c with
    | none => rw [ha] at h; cases h
    | some a =>
      cases hr : loop f cs with
      | none => rw [ha, hr] at h; cases h
      | some b =>
        rw [ha, hr] at h
        simp only [Option.some.injEq] at h
        subst h
        obtain ⟨t, h1, h2⟩ := hb c (by simp) a ha
        obtain ⟨ts, h3, h4⟩ := loop_read cs b hr (fun x hx => hb x (by simp [hx]))
        refine ⟨t :: ts, .cons h1 h3, fun cur stack rest => ?_⟩
        rw [List.cons_append, List.cons_append, read_blank readLine_blank, List.append_assoc, h2, h4]
        simp

/-- Reading what was printed for a node with parents gives one tree, which shows it. -/
theorem place_read {g : Graph} : ∀ (d n : Nat) (ls : List Text), place g d n = some ls → (g.parents n).length > 0 →
    (∀ m, Below g n m → (g.parents m).length > 0) →
    ∃ t, Shows g n t ∧ ∀ cur stack rest, read cur stack (ls ++ rest) = read (cur ++ [t]) stack rest
  | 0, n, ls, h, _, _ => by simp [place] at h
  | d + 1, n, ls, h, hp, hb => by
    rw [place] at h
    cases hk : loop (place g d) (g.children n) with
    | none => rw [hk] at h; cases h
    | some ks =>
      rw [hk] at h
      simp only [hp, if_true, Option.some.injEq] at h
      subst h
      obtain ⟨ts, h1, h2⟩ := loop_read (g := g) (g.children n) ks hk (fun c hc a ha =>
        place_read d c a ha (hb c (.child hc)) (fun m hm => hb m (hm.above hc)))
      refine ⟨.node (g.label n) ts, .mk n ts h1, fun cur stack rest => ?_⟩
      rw [List.append_assoc, List.append_assoc, List.singleton_append, read_start (readLine_start _), h2, List.nil_append,
        List.singleton_append, read_stop readLine_stop]

theorem loop_some {f : Nat → Option (List Text)} : ∀ (cs : List Nat), (loop f cs).isSome = true ↔ ∀ c ∈ cs, (f c).isSome = true
  | [] => by simp [loop]
  | c :: cs => by
    rw [loop]
    have h2 := loop_some (f := f) cs
    simp only [List.mem_cons, forall_eq_or_imp]
    rw [← h2]
    cases f c <;> cases loop f cs <;> simp

theorem place_some {g : Graph} : ∀ (d n : Nat), (place g d n).isSome = true ↔ ¬ Path g n d
  | 0, n => by simp [place, Path.here]
  | d + 1, n => by
    have h : (place g (d + 1) n).isSome = (loop (place g d) (g.children n)).isSome := by
      rw [place]
      cases loop (place g d) (g.children n) with
      | none => rfl
      | some ls => simp only []; split <;> rfl
    rw [h, loop_some]
    constructor
    · intro h' hp
      cases hp with
      | step hc hp => exact (place_some d _).1 (h' _ hc) hp
    · intro h' c hc
      exact (place_some d c).2 fun hp => h' (.step hc hp)

/-! ## C74 -/

/-- **C74 (partial).** If every node below the root knows a parent, then what is printed for a root without parents, read back, is exactly the
forest below the root: one drawing for each child, with its label and, in the same order, its children, and so on. -/
theorem C74_drawing_partial (g : Graph) (r depth : Nat) (ls : List Text) (h : place g depth r = some ls) (hr : g.parents r = [])
    (hb : ∀ m, Below g r m → g.parents m ≠ []) :
    ∃ ts, List.Forall₂ (Shows g) (g.children r) ts ∧ read [] [] ls = some ts := by
  cases depth with
  | zero => simp [place] at h
  | succ d =>
    rw [place] at h
    cases hk : loop (place g d) (g.children r) with
    | none => rw [hk] at h; cases h
    | some ks =>
      rw [hk, hr] at h
      simp only [List.length_nil, gt_iff_lt, Nat.lt_irrefl, if_false, Option.some.injEq] at h
      subst h
      have pos : ∀ m, Below g r m → (g.parents m).length > 0 := fun m hm => List.length_pos_iff.2 (hb m hm)
      obtain ⟨ts, h1, h2⟩ := loop_read (g := g) (g.children r) ks hk (fun c hc a ha =>
        place_read d c a ha (pos c (.child hc)) (fun m hm => pos m (hm.above hc)))
      refine ⟨ts, h1, ?_⟩
      have := h2 [] [] []
      simpa [read] using this

/-- **C74, when it ends.** The call returns if and only if no path of as many steps as the recursion limit starts at the node. -/
theorem C74_returns_iff (g : Graph) (r depth : Nat) : (∃ ls, place g depth r = some ls) ↔ ¬ Path g r depth := by
  rw [← place_some, Option.isSome_iff_exists]

/-- **C74 violated.** A graph with a cycle below the root is never drawn, whatever the recursion limit is. -/
theorem C74_cycle_violation (g : Graph) (r m : Nat) (hm : m = r ∨ Below g r m) (hc : Below g m m) (depth : Nat) : place g depth r = none := by
  have back : ∀ {a b : Nat}, Below g a b → ∀ k, Path g b k → Path g a k := by
    intro a b hab
    have shorten : ∀ {a : Nat} (k : Nat), Path g a (k + 1) → Path g a k := by
      intro a k
      induction k generalizing a with
      | zero => intro _; exact .here a
      | succ k ih =>
        intro h
        cases h with
        | step h1 h2 => exact .step h1 (ih h2)
    induction hab with
    | child h => intro k hp; exact shorten k (.step h hp)
    | step _ h ih => intro k hp; exact ih k (shorten k (.step h hp))
  have grow : ∀ {a b : Nat}, Below g a b → ∀ k, Path g b k → Path g a (k + 1) := by
    intro a b hab
    induction hab with
    | child h => intro k hp; exact .step h hp
    | step h0 h ih =>
      intro k hp
      have := ih (k + 1) (.step h hp)
      have shorten : ∀ {a : Nat} (k : Nat), Path g a (k + 1) → Path g a k := by
        intro a k
        induction k generalizing a with
        | zero => intro _; exact .here a
        | succ k ih =>
          intro h
          cases h with
          | step h1 h2 => exact .step h1 (ih h2)
      exact shorten _ this
  have all : ∀ k, Path g m k := by
    intro k
    induction k with
    | zero => exact .here m
    | succ k ih => exact grow hc k ih
  have hp : Path g r depth := by
    rcases hm with rfl | hm
    · exact all depth
    · exact back hm depth (all depth)
  cases h : place g depth r with
  | none => rfl
  | some ls => exact absurd hp ((C74_returns_iff g r depth).1 ⟨ls, h⟩)

/-! ### Examples -/

/-- th_1 above th_2 and d_3, th_4 below d_3; 0 is the root -/
def demo : Graph where
  children n := if n = 0 then [1] else if n = 1 then [2, 3] else if n = 3 then [4] else []
  parents n := if n = 1 then [0] else if n = 2 ∨ n = 3 then [1] else if n = 4 then [3] else []
  label n := if n = 1 then "\\theta_{1}".toList else if n = 2 then "\\theta_{2}".toList else if n = 3 then "d_{3}".toList else "\\theta_{4}".toList

/-- the printed lines -/
example : place demo 10 0 = some (["   ", "child { node {$\\theta_{1}$}  ", "   ", "child { node {$\\theta_{2}$}  ", "}", "   ",
    "child { node {$d_{3}$}  ", "   ", "child { node {$\\theta_{4}$}  ", "}", "}", "}"].map String.toList) := by decide +kernel

/-- Non-vacuity of C74_drawing_partial. -/
example : demo.parents 0 = [] ∧ ∀ m, Below demo 0 m → demo.parents m ≠ [] := by
  refine ⟨rfl, ?_⟩
  have key : ∀ n c, c ∈ demo.children n → demo.parents c ≠ [] := by
    intro n c hc
    simp only [demo] at hc
    split at hc
    · simp at hc; subst hc; decide
    · split at hc
      · simp at hc; rcases hc with rfl | rfl <;> decide
      · split at hc
        · simp at hc; subst hc; decide
        · cases hc
  intro m hm
  cases hm with
  | child h => exact key _ _ h
  | step _ h => exact key _ _ h

/-- **C74 violated.** A node that was put among the children of another but whose own list of parents is empty is not drawn; its children are
drawn as children of the node above. -/
theorem C74_missing_parent_violation :
    let g : Graph := { demo with parents := fun n => if n = 3 then [] else demo.parents n }
    place g 10 0 = some (["   ", "child { node {$\\theta_{1}$}  ", "   ", "child { node {$\\theta_{2}$}  ", "}", "   ",
      "   ", "child { node {$\\theta_{4}$}  ", "}", "}"].map String.toList) := by decide +kernel

/-- **C74 violated.** A node below two others is drawn twice, with everything below it: the drawing is a tree, not the graph. -/
theorem C74_shared_violation :
    let g : Graph := { demo with children := fun n => if n = 2 then [4] else demo.children n }
    ((place g 10 0).map fun ls => (ls.filter fun l => l = "child { node {$\\theta_{4}$}  ".toList).length) = some 2 := by decide +kernel

/-- a cycle -/
example : let g : Graph := { demo with children := fun n => if n = 4 then [1] else demo.children n }
    (1 = 0 ∨ Below g 0 1) ∧ Below g 1 1 := by
  refine ⟨.inr (.child (by decide)), ?_⟩
  exact .step (.step (.child (c := 3) (by decide)) (c := 4) (by decide)) (by decide)

end Verif.Out.Tikz
