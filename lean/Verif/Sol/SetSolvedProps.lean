import Verif.Sol.SetSolved
/-!
# C19, C20: the solution order, dependencies and versions
-/
namespace Verif.Sol
open Verif.Sym

/-! ## Lemmas about one call -/

@[simp] theorem upd_unknowns (w : World) (x f) : (w.upd x f).unknowns = w.unknowns := rfl
@[simp] theorem upd_solveN (w : World) (x f) : (w.upd x f).solveN = w.solveN := rfl
@[simp] theorem upd_nodes (w : World) (x f) : (w.upd x f).nodes = w.nodes := rfl
@[simp] theorem upd_edges (w : World) (x f) : (w.upd x f).edges = w.edges := rfl
@[simp] theorem upd_same (w : World) (x f) : (w.upd x f).unk x = f (w.unk x) := by simp [World.upd]
theorem upd_other (w : World) {x n : String} (f) (h : n ≠ x) : (w.upd x f).unk n = w.unk n := by simp [World.upd, h]

theorem mem_ins {α : Type} [DecidableEq α] {a b : α} {s : List α} : a ∈ ins b s ↔ a = b ∨ a ∈ s := by
  unfold ins
  split
  · rename_i h
    constructor
    · exact .inr
    · rintro (rfl | h')
      · exact h
      · exact h'
  · simp [or_comm]

theorem nodup_ins {α : Type} [DecidableEq α] {b : α} {s : List α} (h : s.Nodup) : (ins b s).Nodup := by
  unfold ins
  split
  · exact h
  · rename_i hb
    rw [List.nodup_append]
    refine ⟨h, by simp, ?_⟩
    intro a ha c hc
    simp at hc; subst hc
    intro he; exact hb (he ▸ ha)

theorem mem_fold_ins {α β : Type} [DecidableEq β] (g : α → β) {b : β} : ∀ (l : List α) (s : List β),
    b ∈ l.foldl (fun s d => ins (g d) s) s ↔ b ∈ s ∨ ∃ a ∈ l, b = g a
  | [], s => by simp
  | a :: l, s => by
    rw [List.foldl_cons, mem_fold_ins g l, mem_ins]
    simp only [List.mem_cons, exists_eq_or_imp]
    constructor
    · rintro ((h | h) | h)
      · exact .inr (.inl h)
      · exact .inl h
      · exact .inr (.inr h)
    · rintro (h | h | h)
      · exact .inl (.inr h)
      · exact .inl (.inl h)
      · exact .inr h

theorem nodup_fold_ins {α β : Type} [DecidableEq β] (g : α → β) : ∀ (l : List α) (s : List β), s.Nodup →
    (l.foldl (fun s d => ins (g d) s) s).Nodup
  | [], _, h => h
  | _ :: l, _, h => by rw [List.foldl_cons]; exact nodup_fold_ins g l _ (nodup_ins h)

theorem getDeps_fold {p : String → Bool} {d : String} : ∀ (l : List String) (s : List String),
    d ∈ l.foldl (fun s n => if p n then ins n s else s) s ↔ d ∈ s ∨ (d ∈ l ∧ p d = true)
  | [], s => by simp
  | n :: l, s => by
    rw [List.foldl_cons, getDeps_fold l]
    by_cases hp : p n = true
    · simp only [hp, if_true, mem_ins, List.mem_cons]
      constructor
      · rintro ((rfl | h) | ⟨h1, h2⟩)
        · exact .inr ⟨.inl rfl, hp⟩
        · exact .inl h
        · exact .inr ⟨.inr h1, h2⟩
      · rintro (h | ⟨rfl | h1, h2⟩)
        · exact .inl (.inr h)
        · exact .inl (.inl rfl)
        · exact .inr ⟨h1, h2⟩
    · simp only [hp, List.mem_cons]
      constructor
      · rintro (h | ⟨h1, h2⟩)
        · exact .inl h
        · exact .inr ⟨.inr h1, h2⟩
      · rintro (h | ⟨rfl | h1, h2⟩)
        · exact .inl h
        · exact absurd h2 hp
        · exact .inr ⟨h1, h2⟩

theorem getDeps_ok {w : World} {e : Expr} {ds : List String} (h : getDeps w e = .ok ds) :
    (∀ n ∈ w.unknowns, e.has n = true → (w.unk n).solved = true) ∧
    ∀ d, d ∈ ds ↔ d ∈ w.unknowns ∧ e.has d = true := by
  unfold getDeps at h
  split at h
  · cases h
  · rename_i hn
    cases h
    have h1 : ∀ n ∈ w.unknowns, e.has n = true → (w.unk n).solved = true := by
      intro n hn' he
      have : ¬ (e.has n && !(w.unk n).solved) = true := by
        intro h; exact hn (List.any_eq_true.2 ⟨n, hn', h⟩)
      rw [he] at this
      simpa using this
    refine ⟨h1, fun d => ?_⟩
    rw [getDeps_fold (p := fun n => e.has n && (w.unk n).solved)]
    simp only [List.not_mem_nil, false_or, Bool.and_eq_true]
    constructor
    · rintro ⟨a, b, _⟩; exact ⟨a, b⟩
    · rintro ⟨a, b⟩; exact ⟨a, b, h1 d a b⟩

/-- C24 for `get_deps`: it raises iff some listed unsolved unknown occurs in the expression; otherwise it returns exactly the listed
(solved) unknowns that occur. -/
theorem C24_get_deps (w : World) (e : Expr) :
    ((∃ n ∈ w.unknowns, e.has n = true ∧ (w.unk n).solved = false) ∧ getDeps w e = .error .assertion) ∨
    ((∀ n ∈ w.unknowns, e.has n = true → (w.unk n).solved = true) ∧
      ∃ ds, getDeps w e = .ok ds ∧ ∀ d, d ∈ ds ↔ d ∈ w.unknowns ∧ e.has d = true) := by
  cases h : getDeps w e with
  | ok ds => exact .inr ⟨(getDeps_ok h).1, ds, rfl, (getDeps_ok h).2⟩
  | error er =>
    cases er
    left
    refine ⟨?_, rfl⟩
    unfold getDeps at h
    split at h
    · rename_i ha
      obtain ⟨n, hn, hh⟩ := List.any_eq_true.1 ha
      simp only [Bool.and_eq_true, Bool.not_eq_true'] at hh
      exact ⟨n, hn, hh⟩
    · cases h

/-- The loop over the solutions, when it ends without exception. -/
theorem solLoop_ok {x : String} : ∀ {sols : List Expr} {n : Nat} {w w' : World}, solLoop x n sols w = (w', none) →
    (∀ sol ∈ sols, ∀ m ∈ w.unknowns, sol.has m = true → (w.unk m).solved = true) ∧
    ∃ ds : List String, ((w.unk x).deps.Nodup → ds.Nodup) ∧
      (∀ d, d ∈ ds ↔ d ∈ (w.unk x).deps ∨ (d ∈ w.unknowns ∧ ∃ sol ∈ sols, sol.has d = true)) ∧
      w' = w.upd x fun u => { u with
        deps := ds, solutionNames := u.solutionNames ++ (List.range sols.length).map fun k => .s x (n + k) }
  | [], n, w, w', h => by
    simp only [solLoop, Prod.mk.injEq, and_true] at h
    subst h
    refine ⟨by simp, (w.unk x).deps, id, by simp, ?_⟩
    cases w with
    | mk a unk b c d =>
      simp only [World.upd, List.length_nil, List.range_zero, List.map_nil, List.append_nil]
      congr 1
      funext m
      split
      · rename_i h; subst h; rfl
      · rfl
  | sol :: sols, n, w, w', h => by
    rw [solLoop] at h
    cases hd : getDeps w sol with
    | error e => simp [hd] at h
    | ok ds0 =>
      simp only [hd] at h
      obtain ⟨h1, h2⟩ := getDeps_ok hd
      obtain ⟨h3, ds, h4, h5, h6⟩ := solLoop_ok h
      have hs : ∀ (f : Unk → Unk) (hf : ∀ u, (f u).solved = u.solved) m,
          ((w.upd x f).unk m).solved = (w.unk m).solved := by
        intro f hf m
        by_cases hm : m = x
        · subst hm; simp [hf]
        · rw [upd_other _ _ hm]
      refine ⟨?_, ds, ?_, ?_, ?_⟩
      · intro s hs' m hm he
        rcases List.mem_cons.1 hs' with rfl | hs'
        · exact h1 m hm he
        · have := h3 s hs' m hm he
          rw [hs] at this
          · exact this
          · intro u; rfl
      · intro hn
        apply h4
        simp only [upd_same]
        exact nodup_fold_ins (fun d => d) _ _ hn
      · intro d
        rw [h5 d]
        simp only [upd_same, upd_unknowns, mem_fold_ins (fun d => d)]
        constructor
        · rintro ((h | ⟨a, ha, rfl⟩) | ⟨h, s, hs', he⟩)
          · exact .inl h
          · exact .inr ⟨((h2 _).1 ha).1, sol, by simp, ((h2 _).1 ha).2⟩
          · exact .inr ⟨h, s, by simp [hs'], he⟩
        · rintro (h | ⟨h, s, hs', he⟩)
          · exact .inl (.inl h)
          · rcases List.mem_cons.1 hs' with rfl | hs'
            · exact .inl (.inr ⟨d, (h2 d).2 ⟨h, he⟩, rfl⟩)
            · exact .inr ⟨h, s, hs', he⟩
      · rw [h6]
        simp only [World.upd]
        congr 1
        funext m
        by_cases hm : m = x
        · subst hm
          simp only [if_true]
          congr 1
          rw [List.append_assoc, List.length_cons, List.range_succ_eq_map, List.map_cons, List.map_map]
          simp only [List.cons_append, List.nil_append, Nat.add_zero]
          congr 3
          funext k
          simp only [Function.comp]
          congr 1; omega
        · simp [hm]

/-- One successful call. -/
structure Step (w : World) (x : String) (w' : World) : Prop where
  unknowns : w'.unknowns = w.unknowns
  solveN : w'.solveN = w.solveN + 1
  nodes : w'.nodes = w.nodes ++ [x]
  other : ∀ n, n ≠ x → w'.unk n = w.unk n
  solved : (w'.unk x).solved = true
  order : (w'.unk x).solveorder = w.solveN + 1
  solutions : (w'.unk x).solutions = (w.unk x).solutions
  nsols : (w'.unk x).nsolutions = (w.unk x).solutions.length
  pos : 0 < (w.unk x).solutions.length
  before : ∀ sol ∈ (w.unk x).solutions, ∀ n ∈ w.unknowns, sol.has n = true → n = x ∨ (w.unk n).solved = true
  deps : ∀ d, d ∈ (w'.unk x).deps ↔
    d ∈ (w.unk x).deps ∨ (d ∈ w.unknowns ∧ ∃ sol ∈ (w.unk x).solutions, sol.has d = true)
  depsNodup : (w.unk x).deps.Nodup → (w'.unk x).deps.Nodup
  edges : ∀ a d, (a, d) ∈ w'.edges ↔ (a, d) ∈ w.edges ∨ (a = x ∧ d ∈ (w'.unk x).deps)
  nver : (w'.unk x).nversions =
    (w'.unk x).deps.foldl (fun n d => n * (w'.unk d).nsolutions) (w.unk x).solutions.length
  solNames : (w'.unk x).solutionNames =
    (w.unk x).solutionNames ++ (List.range (w.unk x).solutions.length).map fun k => .s x (1 + k)
  verNames : (w'.unk x).versionNames = (w.unk x).versionNames ++ (List.range (w'.unk x).nversions).map fun i =>
    ((w'.unk x).solutionNames[i % (w'.unk x).nsolutions]?).getD (.s x 0)

theorem setSolved_ok {w w' : World} {x : String} (h : setSolved w x = (w', none)) : Step w x w' := by
  unfold setSolved at h
  simp only [upd_same] at h
  split at h
  · simp at h
  · rename_i hpos
    split at h
    · simp at h
    · rename_i w1 hl
      obtain ⟨h1, ds, h2, h3, h4⟩ := solLoop_ok hl
      simp only [upd_same, upd_unknowns, upd_edges, upd_nodes, Prod.mk.injEq, and_true] at h h1 h2 h3 hl
      have hx : w1.unk x = { w.unk x with
          solved := true, nsolutions := (w.unk x).solutions.length, solveorder := w.solveN + 1, deps := ds,
          solutionNames := (w.unk x).solutionNames ++
            (List.range (w.unk x).solutions.length).map fun k => .s x (1 + k) } := by
        rw [h4]; simp only [upd_same]; rfl
      have ho : ∀ n, n ≠ x → w1.unk n = w.unk n := by
        intro n hn
        rw [h4, upd_other _ _ hn, upd_other _ _ hn]
        simp [World.upd, hn]
      have hno : w1.nodes = w.nodes := by rw [h4]; rfl
      have hed : w1.edges = w.edges := by rw [h4]; rfl
      have hun : w1.unknowns = w.unknowns := by rw [h4]; rfl
      have hso : w1.solveN = w.solveN + 1 := by rw [h4]; rfl
      subst h
      constructor <;> (try simp only [World.upd, if_true, hx]) <;> try assumption
      · simp only [hno]
      · intro n hn; simp only [hn, if_false]; exact ho n hn
      · omega
      · intro sol hs n hn he
        have := h1 sol hs n hn he
        by_cases hnx : n = x
        · exact .inl hnx
        · right; rw [upd_other _ _ hnx] at this; simpa [World.upd, hnx] using this
      · intro a d
        rw [mem_fold_ins (fun d => (x, d)), hed]
        constructor
        · rintro (h | ⟨a', ha', he⟩)
          · exact .inl h
          · cases he; exact .inr ⟨rfl, ha'⟩
        · rintro (h | ⟨rfl, h⟩)
          · exact .inl h
          · exact .inr ⟨d, h, rfl⟩
      · congr 1
        funext n d
        congr 1
        by_cases hd : d = x
        · subst hd; simp [hx]
        · simp [hd]

/-! ## Lemmas about runs -/

theorem runCalls_cons {w w' : World} {x : String} {s : List Expr} {cs : List (String × List Expr)}
    (h : runCalls w ((x, s) :: cs) = (w', none)) :
    ∃ w1, Step (setSolutions w x s) x w1 ∧ runCalls w1 cs = (w', none) := by
  rw [runCalls] at h
  split at h
  · simp at h
  · rename_i w1 h1; exact ⟨w1, setSolved_ok h1, h⟩

theorem runCalls_append {w w' : World} : ∀ {pre post : List (String × List Expr)},
    runCalls w (pre ++ post) = (w', none) → ∃ w1, runCalls w pre = (w1, none) ∧ runCalls w1 post = (w', none)
  | [], post, h => ⟨w, rfl, h⟩
  | (x, s) :: pre, post, h => by
    rw [List.cons_append, runCalls] at h
    rw [runCalls]
    split at h
    · simp at h
    · rename_i w1 h1
      exact runCalls_append h

theorem run_frame {n : String} : ∀ {cs : List (String × List Expr)} {w w' : World}, runCalls w cs = (w', none) →
    n ∉ cs.map (·.1) → w'.unk n = w.unk n
  | [], w, w', h, _ => by simp [runCalls] at h; rw [h]
  | (x, s) :: cs, w, w', h, hn => by
    obtain ⟨w1, h1, h2⟩ := runCalls_cons h
    simp only [List.map_cons, List.mem_cons, not_or] at hn
    rw [run_frame h2 hn.2, h1.other n hn.1]
    exact upd_other _ _ hn.1

theorem run_unknowns : ∀ {cs : List (String × List Expr)} {w w' : World}, runCalls w cs = (w', none) →
    w'.unknowns = w.unknowns
  | [], w, w', h => by simp [runCalls] at h; rw [h]
  | (x, s) :: cs, w, w', h => by
    obtain ⟨w1, h1, h2⟩ := runCalls_cons h
    rw [run_unknowns h2, h1.unknowns]; rfl

theorem run_nodes : ∀ {cs : List (String × List Expr)} {w w' : World}, runCalls w cs = (w', none) →
    w'.nodes = w.nodes ++ cs.map (·.1) ∧ w'.solveN = w.solveN + cs.length
  | [], w, w', h => by simp [runCalls] at h; rw [h]; simp
  | (x, s) :: cs, w, w', h => by
    obtain ⟨w1, h1, h2⟩ := runCalls_cons h
    obtain ⟨h3, h4⟩ := run_nodes h2
    rw [h3, h4, h1.nodes, h1.solveN]
    constructor
    · simp [setSolutions]
    · simp [setSolutions]; omega

theorem run_solved : ∀ {cs : List (String × List Expr)} {w w' : World}, runCalls w cs = (w', none) →
    ∀ n, (w'.unk n).solved = true ↔ (w.unk n).solved = true ∨ n ∈ cs.map (·.1)
  | [], w, w', h, n => by simp [runCalls] at h; rw [h]; simp
  | (x, s) :: cs, w, w', h, n => by
    obtain ⟨w1, h1, h2⟩ := runCalls_cons h
    rw [run_solved h2 n]
    by_cases hn : n = x
    · subst hn; simp [h1.solved]
    · rw [h1.other n hn]
      simp [setSolutions, upd_other _ _ hn, hn]

theorem run_edges {a d : String} : ∀ {cs : List (String × List Expr)} {w w' : World}, runCalls w cs = (w', none) →
    (a, d) ∈ w.edges → (a, d) ∈ w'.edges
  | [], w, w', h, hm => by simp [runCalls] at h; rw [← h]; exact hm
  | (x, s) :: cs, w, w', h, hm => by
    obtain ⟨w1, h1, h2⟩ := runCalls_cons h
    exact run_edges h2 ((h1.edges a d).2 (.inl hm))

/-- An edge that is new after a run belongs to one of its calls. -/
theorem run_edges_new {a d : String} : ∀ {cs : List (String × List Expr)} {w w' : World}, runCalls w cs = (w', none) →
    (a, d) ∈ w'.edges → (a, d) ∈ w.edges ∨ ∃ pre s post w0 w1, cs = pre ++ (a, s) :: post ∧
      runCalls w pre = (w0, none) ∧ Step (setSolutions w0 a s) a w1 ∧ d ∈ (w1.unk a).deps
  | [], w, w', h, hm => by simp [runCalls] at h; rw [h]; exact .inl hm
  | (x, s) :: cs, w, w', h, hm => by
    have h0 := h
    rw [runCalls] at h0
    obtain ⟨w1, h1, h2⟩ := runCalls_cons h
    split at h0
    · simp at h0
    · rename_i w1' he
      rcases run_edges_new h0 hm with h | ⟨pre, s', post, w2, w3, h3, h4, h5, h6⟩
      · rcases ((setSolved_ok he).edges a d).1 h with h | ⟨rfl, h⟩
        · exact .inl h
        · exact .inr ⟨[], s, cs, w, w1', rfl, rfl, setSolved_ok he, h⟩
      · refine .inr ⟨(x, s) :: pre, s', post, w2, w3, by rw [h3]; rfl, ?_, h5, h6⟩
        rw [runCalls, he]; exact h4

/-! ## Specification -/

/-- In each call the unknown is a new one and does not occur in its own solutions. (What a correct solver does; neither is
checked by the program, see the violations below.) -/
def FreshCalls (cs : List (String × List Expr)) : Prop :=
  (cs.map (·.1)).Nodup ∧ ∀ c ∈ cs, ∀ sol ∈ c.2, sol.has c.1 = false

/-- The product of a list of numbers. -/
def prod (l : List Nat) : Nat := l.foldr (· * ·) 1

/-- One call of a fresh run, seen from the final state. -/
theorem run_split {us : List String} {pre post : List (String × List Expr)} {x : String} {s : List Expr} {w : World}
    (hnd : ((pre ++ (x, s) :: post).map (·.1)).Nodup)
    (h : runCalls (start us) (pre ++ (x, s) :: post) = (w, none)) :
    ∃ w1 w2, runCalls (start us) pre = (w1, none) ∧ Step (setSolutions w1 x s) x w2 ∧
      runCalls w2 post = (w, none) ∧ w1.unknowns = us ∧ w1.unk x = {} ∧ w.unk x = w2.unk x := by
  obtain ⟨w1, h1, h2⟩ := runCalls_append h
  obtain ⟨w2, h3, h4⟩ := runCalls_cons h2
  simp only [List.map_append, List.map_cons] at hnd
  have hp : x ∉ pre.map (·.1) ∧ x ∉ post.map (·.1) := by
    rw [List.nodup_append] at hnd
    obtain ⟨_, hb, hc⟩ := hnd
    exact ⟨fun hm => hc x hm x (by simp) rfl, (List.nodup_cons.1 hb).1⟩
  exact ⟨w1, w2, h1, h3, h4, run_unknowns h1, run_frame h1 hp.1, run_frame h4 hp.2⟩

theorem split_of_getElem? {α : Type} : ∀ {l : List α} {i : Nat} {a : α}, l[i]? = some a →
    ∃ pre post, l = pre ++ a :: post ∧ pre.length = i
  | [], i, a, h => by simp at h
  | b :: l, 0, a, h => by simp at h; exact ⟨[], l, by simp [h], rfl⟩
  | b :: l, i + 1, a, h => by
    obtain ⟨pre, post, h1, h2⟩ := split_of_getElem? (l := l) (i := i) (by simpa using h)
    exact ⟨b :: pre, post, by simp [h1], by simp [h2]⟩

/-! ## C19 -/

/-- C19, orders, for *every* history of calls that do not raise: the nodes are the unknowns in call order, the counter is
the number of calls, and each unknown's recorded order is the (1-based) number of its last call. An unknown without a call is untouched. -/
theorem C19_orders {us : List String} {cs : List (String × List Expr)} {w : World}
    (h : runCalls (start us) cs = (w, none)) :
    w.nodes = cs.map (·.1) ∧ w.solveN = cs.length ∧
    (∀ n, (w.unk n).solved = true ↔ n ∈ cs.map (·.1)) ∧
    (∀ (i : Nat) (c : String × List Expr), cs[i]? = some c →
      (∀ (j : Nat) (c' : String × List Expr), i < j → cs[j]? = some c' → c'.1 ≠ c.1) →
      (w.unk c.1).solveorder = i + 1) ∧
    ∀ n, n ∉ cs.map (·.1) → w.unk n = {} := by
  obtain ⟨h1, h2⟩ := run_nodes h
  refine ⟨by simpa [start] using h1, by simpa [start] using h2, ?_, ?_, ?_⟩
  · intro n; rw [run_solved h n]; simp [start]
  · rintro i ⟨x, s⟩ hi hlast
    obtain ⟨pre, post, rfl, hl⟩ := split_of_getElem? hi
    obtain ⟨w1, h3, h4⟩ := runCalls_append h
    obtain ⟨w2, h5, h6⟩ := runCalls_cons h4
    have hx : x ∉ post.map (·.1) := by
      intro hm
      obtain ⟨c', hc', he⟩ := List.mem_map.1 hm
      obtain ⟨k, hk⟩ := List.mem_iff_getElem?.1 hc'
      refine hlast (i + 1 + k) c' (by omega) ?_ he
      rw [List.getElem?_append_right (by omega), show i + 1 + k - pre.length = k + 1 by omega]
      simpa using hk
    rw [run_frame h6 hx, h5.order]
    have := (run_nodes h3).2
    simp [setSolutions, start] at this ⊢; omega
  · intro n hn; exact run_frame h hn

/-- C19, dependencies and well-foundedness. For every fresh history: call number i records order i+1; the recorded
dependencies are exactly the listed unknowns that occur in the solutions; each was solved by an earlier call, so has a strictly
smaller order; and the edges are exactly the dependencies.
Missing for the full C19: histories that are not fresh, where it is false (below). -/
theorem C19_dependencies_partial {us : List String} {cs : List (String × List Expr)} {w : World} (hf : FreshCalls cs)
    (h : runCalls (start us) cs = (w, none)) {i : Nat} {x : String} {s : List Expr} (hi : cs[i]? = some (x, s)) :
    (w.unk x).solveorder = i + 1 ∧
    (∀ d, d ∈ (w.unk x).deps ↔ d ∈ us ∧ ∃ sol ∈ s, sol.has d = true) ∧
    (∀ d ∈ (w.unk x).deps, (∃ (j : Nat) (c : String × List Expr), j < i ∧ cs[j]? = some c ∧ c.1 = d) ∧
      (w.unk d).solved = true ∧ (w.unk d).solveorder < (w.unk x).solveorder) ∧
    ∀ d, (x, d) ∈ w.edges ↔ d ∈ (w.unk x).deps := by
  have ho : ∀ (i : Nat) (c : String × List Expr), cs[i]? = some c → (w.unk c.1).solveorder = i + 1 := by
    intro i c hc
    refine (C19_orders h).2.2.2.1 i c hc ?_
    intro j c' hij hc' he
    have hnd := hf.1
    rw [List.nodup_iff_pairwise_ne, List.pairwise_iff_getElem] at hnd
    obtain ⟨li, gi⟩ := List.getElem?_eq_some_iff.1 hc
    obtain ⟨lj, gj⟩ := List.getElem?_eq_some_iff.1 hc'
    refine hnd i j (by simpa using li) (by simpa using lj) hij ?_
    simp [gi, gj, he]
  obtain ⟨pre, post, rfl, hl⟩ := split_of_getElem? hi
  obtain ⟨w1, w2, h1, h2, h3, h4, h5, h6⟩ := run_split hf.1 h
  have hdeps : ∀ d, d ∈ (w.unk x).deps ↔ d ∈ us ∧ ∃ sol ∈ s, sol.has d = true := by
    intro d
    rw [h6, h2.deps d]
    simp [setSolutions, h5, h4]
  refine ⟨ho i _ hi, hdeps, ?_, ?_⟩
  · intro d hd
    obtain ⟨hd1, sol, hd2, hd3⟩ := (hdeps d).1 hd
    have hb := h2.before sol (by simpa [setSolutions] using hd2) d (by simpa [setSolutions, h4] using hd1) hd3
    have hdx : d ≠ x := by
      rintro rfl
      have := hf.2 (d, s) (by simp) sol hd2
      simp [hd3] at this
    have hsol : (w1.unk d).solved = true := by
      rcases hb with hb | hb
      · exact absurd hb hdx
      · simpa [setSolutions, upd_other _ _ hdx] using hb
    have hmem : d ∈ pre.map (·.1) := by
      rcases (run_solved h1 d).1 hsol with h | h
      · simp [start] at h
      · exact h
    obtain ⟨c, hc, rfl⟩ := List.mem_map.1 hmem
    obtain ⟨j, hj⟩ := List.mem_iff_getElem?.1 hc
    have hji : j < i := by have := (List.getElem?_eq_some_iff.1 hj).1; omega
    have hj' : (pre ++ (x, s) :: post)[j]? = some c := by rw [List.getElem?_append_left (by omega)]; exact hj
    refine ⟨⟨j, c, hji, hj', rfl⟩, ?_, ?_⟩
    · rw [run_solved h c.1]; right; simp only [List.map_append, List.mem_append]; exact .inl hmem
    · rw [ho j c hj', ho i _ hi]; omega
  · intro d
    constructor
    · intro he
      rcases run_edges_new h he with h' | ⟨pre', s', post', w3, w4, e1, e2, e3, e4⟩
      · simp [start] at h'
      · obtain ⟨v1, v2, k1, k2, k3, k4, k5, k6⟩ := run_split (e1 ▸ hf.1) (e1 ▸ h)
        rw [k1] at e2; cases e2
        rw [k6, k2.deps d]
        rw [e3.deps d] at e4
        exact e4
    · intro hd
      exact run_edges h3 ((h2.edges x d).2 (.inr ⟨rfl, h6 ▸ hd⟩))

/-- C19: the solution graph of a fresh history has no cycle: no unknown depends, through any number of edges, on itself. -/
theorem C19_acyclic_partial {us : List String} {cs : List (String × List Expr)} {w : World} (hf : FreshCalls cs)
    (h : runCalls (start us) cs = (w, none)) (x : String) :
    ¬ Relation.TransGen (fun a d => (a, d) ∈ w.edges) x x := by
  have hstep : ∀ a d, (a, d) ∈ w.edges → (w.unk d).solveorder < (w.unk a).solveorder := by
    intro a d he
    rcases run_edges_new h he with h' | ⟨pre', s', post', w3, w4, e1, _, _, _⟩
    · simp [start] at h'
    · have hi : cs[pre'.length]? = some (a, s') := by rw [e1]; simp
      obtain ⟨_, _, h3, h4⟩ := C19_dependencies_partial hf h hi
      exact (h3 d ((h4 d).1 he)).2.2
  have : ∀ a b, Relation.TransGen (fun a d => (a, d) ∈ w.edges) a b → (w.unk b).solveorder < (w.unk a).solveorder := by
    intro a b hab
    induction hab with
    | single h => exact hstep _ _ h
    | tail _ h ih => have := hstep _ _ h; omega
  intro hx
  exact Nat.lt_irrefl _ (this x x hx)

/-- C19: whatever the history before, a call whose solutions contain a listed, still unsolved other unknown raises. -/
theorem C19_unsolved_dependency_raises {w : World} {x n : String} {sol : Expr} (hs : sol ∈ (w.unk x).solutions)
    (hn : n ∈ w.unknowns) (hh : sol.has n = true) (hx : n ≠ x) (hu : (w.unk n).solved = false) :
    ∃ w', setSolved w x = (w', some .assertion) := by
  rcases he : setSolved w x with ⟨w', _ | ⟨⟨⟩⟩⟩
  · rcases (setSolved_ok he).before sol hs n hn hh with h | h
    · exact absurd h hx
    · rw [hu] at h; cases h
  · exact ⟨w', rfl⟩

def demoCalls : List (String × List Expr) :=
  [("a", [.sym "r", .un .neg (.sym "r")]), ("b", [.bin .add (.sym "a") (.sym "q")]), ("c", [.bin .mul (.sym "a") (.sym "b")])]

/-- decidable view of the outcome of a run -/
def outcome (r : World × Option SErr) (n : String) : Option SErr × List String × List (String × String) × Nat × Nat × List VName :=
  (r.2, (r.1.unk n).deps, r.1.edges, (r.1.unk n).solveorder, (r.1.unk n).nversions, (r.1.unk n).versionNames)

theorem fst_of_snd {r : World × Option SErr} (h : r.2 = none) : r = (r.1, none) := by
  obtain ⟨a, b⟩ := r; cases h; rfl

/-- Non-vacuity of the C19 theorems. -/
example : FreshCalls demoCalls ∧ runCalls (start ["a", "b", "c"]) demoCalls = ((runCalls (start ["a", "b", "c"]) demoCalls).1, none) :=
  ⟨⟨by decide, by decide⟩, fst_of_snd (by decide +kernel)⟩

/-- C19 is false of the code (1): a solution that contains its own unknown is accepted (`solved` is set before the
dependencies are computed), and gives a self-loop. -/
theorem C19_self_dependency_violation :
    outcome (runCalls (start ["x"]) [("x", [.bin .add (.sym "x") (.num 1)])]) "x" =
      (none, ["x"], [("x", "x")], 1, 1, [.s "x" 1]) := by decide +kernel

/-- C19 is false of the code (2): nothing prevents a second call for the same unknown; it is then listed twice as a
solution node, and its earlier dependents now have a smaller order than it has: here x (order 3) and y (order 2)
depend on each other. -/
theorem C19_resolve_violation :
    outcome (runCalls (start ["x", "y"]) [("x", [.sym "r"]), ("y", [.sym "x"]), ("x", [.sym "y"])]) "x" =
      (none, ["y"], [("y", "x"), ("x", "y")], 3, 1, [.s "x" 1, .s "x" 1]) ∧
    (runCalls (start ["x", "y"]) [("x", [.sym "r"]), ("y", [.sym "x"]), ("x", [.sym "y"])]).1.nodes = ["x", "y", "x"] := by
  decide +kernel

/-- A failing call still leaves the unknown marked as solved. -/
theorem C19_empty_solutions_marks_solved (w : World) (x : String) (h : (w.unk x).solutions = []) :
    ∃ w', setSolved w x = (w', some .assertion) ∧ (w'.unk x).solved = true := by
  refine ⟨w.upd x fun u => { u with solved := true, nsolutions := u.solutions.length }, ?_, ?_⟩
  · simp only [setSolved]
    rw [if_pos (by simp [h])]
  · simp

/-! ## C20 -/

theorem foldl_prod (f : String → Nat) : ∀ (l : List String) (n : Nat),
    l.foldl (fun n d => n * f d) n = n * prod (l.map f)
  | [], n => by simp [prod]
  | a :: l, n => by
    rw [List.foldl_cons, foldl_prod f l]
    simp only [prod, List.map_cons, List.foldr_cons]
    rw [Nat.mul_assoc]

/-- What the code computes, in every fresh history: the number of versions is the number of solutions times the product of the
numbers of *solutions* of the dependencies. -/
theorem C20_versions_formula {us : List String} {cs : List (String × List Expr)} {w : World} (hf : FreshCalls cs)
    (h : runCalls (start us) cs = (w, none)) {x : String} {s : List Expr} (hi : (x, s) ∈ cs) :
    (w.unk x).nversions = s.length * prod ((w.unk x).deps.map fun d => (w.unk d).nsolutions) ∧
    (w.unk x).deps.Nodup ∧ (w.unk x).nsolutions = s.length := by
  obtain ⟨pre, post, rfl⟩ := List.append_of_mem hi
  obtain ⟨w1, w2, h1, h2, h3, h4, h5, h6⟩ := run_split hf.1 h
  have hi' : (pre ++ (x, s) :: post)[pre.length]? = some (x, s) := by simp
  refine ⟨?_, ?_, ?_⟩
  · rw [h6, h2.nver, foldl_prod]
    congr 1
    · simp [setSolutions]
    · congr 1
      apply List.map_congr_left
      intro d hd
      obtain ⟨⟨j, c, hj, hc, rfl⟩, _, _⟩ := (C19_dependencies_partial hf h hi').2.2.1 d (h6 ▸ hd)
      rw [List.getElem?_append_left hj] at hc
      have hcp : c.1 ∈ pre.map (·.1) := List.mem_map.2 ⟨c, List.mem_of_getElem? hc, rfl⟩
      have hnp : c.1 ∉ post.map (·.1) := by
        have := hf.1
        rw [List.map_append, List.map_cons, List.nodup_append] at this
        intro hm; exact this.2.2 _ hcp _ (by simp [hm]) rfl
      rw [run_frame h3 hnp]
  · rw [h6]; apply h2.depsNodup; simp [setSolutions, h5]
  · rw [h6, h2.nsols]; simp [setSolutions]

/-- C20 when no dependency of the unknown has itself dependencies: versions = solutions × product of the versions of the
dependencies.
Missing: chains of dependencies, where it is false of the code (below). -/
theorem C20_versions_partial {us : List String} {cs : List (String × List Expr)} {w : World} (hf : FreshCalls cs)
    (h : runCalls (start us) cs = (w, none)) {x : String} {s : List Expr} (hi : (x, s) ∈ cs)
    (hd : ∀ d ∈ (w.unk x).deps, (w.unk d).deps = []) :
    (w.unk x).nversions = s.length * prod ((w.unk x).deps.map fun d => (w.unk d).nversions) := by
  rw [(C20_versions_formula hf h hi).1]
  congr 2
  apply List.map_congr_left
  intro d hdm
  obtain ⟨i, hi'⟩ := List.mem_iff_getElem?.1 hi
  obtain ⟨⟨j, ⟨d', s'⟩, hj, hc, rfl⟩, _, _⟩ := (C19_dependencies_partial hf h hi').2.2.1 d hdm
  obtain ⟨h1, _, h3⟩ := C20_versions_formula hf h (List.mem_of_getElem? hc)
  simp only at hd hdm ⊢
  rw [h1, hd d' hdm, h3]; simp [prod]

/-- C20: the version names of an unknown run cyclically through its solution names, as many as there are versions. -/
theorem C20_version_names {us : List String} {cs : List (String × List Expr)} {w : World} (hf : FreshCalls cs)
    (h : runCalls (start us) cs = (w, none)) {x : String} {s : List Expr} (hi : (x, s) ∈ cs) :
    (w.unk x).versionNames = (List.range (w.unk x).nversions).map fun i => .s x (i % s.length + 1) := by
  obtain ⟨pre, post, rfl⟩ := List.append_of_mem hi
  obtain ⟨w1, w2, h1, h2, h3, h4, h5, h6⟩ := run_split hf.1 h
  have hl : 0 < s.length := by simpa [setSolutions] using h2.pos
  rw [h6, h2.verNames, h2.nsols, h2.solNames]
  simp only [setSolutions, upd_same, h5, List.nil_append]
  apply List.map_congr_left
  intro i _
  have : i % s.length < s.length := Nat.mod_lt _ hl
  simp [this, Nat.add_comm]

/-- Non-vacuity: b depends on a, which has no dependencies; 1 × 2 versions. -/
example : outcome (runCalls (start ["a", "b", "c"]) demoCalls) "b" =
    (none, ["a"], [("b", "a"), ("c", "a"), ("c", "b")], 2, 2, [.s "b" 1, .s "b" 1]) := by decide +kernel

/-- C20 is false of the code: x has two solutions, y = f(x) one (two versions), z = g(y): z has two versions (one for each
version of y), but the code computes one. -/
theorem C20_chain_violation :
    let r := runCalls (start ["x", "y", "z"]) [("x", [.sym "r", .un .neg (.sym "r")]), ("y", [.sym "x"]), ("z", [.sym "y"])]
    FreshCalls [("x", [.sym "r", .un .neg (.sym "r")]), ("y", [.sym "x"]), ("z", [.sym "y"])] ∧
    r.2 = none ∧ (r.1.unk "y").nversions = 2 ∧ (r.1.unk "z").deps = ["y"] ∧ (r.1.unk "z").nversions = 1 :=
  ⟨⟨by decide, by decide⟩, by decide +kernel⟩

end Verif.Sol
