import Verif.Eqn.Model
/-!
# C21, C22, C24, C25: equation lists and counting helpers
-/
namespace Verif.Eqn
open Verif.Sym

/-! ## Specification -/

/-- The symbol x belongs to a listed, unsolved unknown and occurs in the expression. -/
def UnsolvedIn (vs : List Var) (e : Expr) (x : String) : Prop :=
  (∃ v ∈ vs, v.name = x ∧ v.solved = false) ∧ e.has x = true

/-- `k` is the number of different unsolved unknowns satisfying `P`. -/
def Exactly (P : String → Prop) (k : Nat) : Prop := ∃ l : List String, l.Nodup ∧ l.length = k ∧ ∀ x, x ∈ l ↔ P x

/-- The equation has `k` different unsolved unknowns (on either side). -/
def NumUnsolved (vs : List Var) (e : KEqn) (k : Nat) : Prop :=
  Exactly (fun x => UnsolvedIn vs e.lhs x ∨ UnsolvedIn vs e.rhs x) k

/-- No unsolved unknown occurs on both sides. -/
def OneSided (vs : List Var) (e : KEqn) : Prop := ∀ x, ¬ (UnsolvedIn vs e.lhs x ∧ UnsolvedIn vs e.rhs x)

/-! ## C24: the counting helpers -/

theorem foldl_filter {p : Var → Bool} : ∀ (vs : List Var) (us : List Var),
    vs.foldl (fun us u => if p u then us ++ [u] else us) us = us ++ vs.filter p
  | [], us => by simp
  | v :: vs, us => by
    rw [List.foldl_cons, foldl_filter vs]
    by_cases h : p v = true <;> simp [h]

theorem foldl_count {p : Var → Bool} : ∀ (vs : List Var) (n : Nat),
    vs.foldl (fun n u => if p u then n + 1 else n) n = n + (vs.filter p).length
  | [], n => by simp
  | v :: vs, n => by
    rw [List.foldl_cons, foldl_count vs]
    by_cases h : p v = true
    · simp [h]; omega
    · simp [h]

theorem countUnknowns_eq (vs : List Var) (e : Expr) : countUnknowns vs e = (getUnknowns vs e).length := by
  unfold countUnknowns getUnknowns
  rw [foldl_count (p := fun u => e.has u.name && u.solved == false),
    foldl_filter (p := fun u => e.has u.name && u.solved == false)]
  simp

theorem nodup_map_filter {p : Var → Bool} {vs : List Var} (h : (vs.map (·.name)).Nodup) :
    ((vs.filter p).map (·.name)).Nodup :=
  h.sublist (List.filter_sublist.map _)

/-- `get_unknowns` returns the listed unsolved unknowns that occur, in list order. -/
theorem C24_get_unknowns (vs : List Var) (e : Expr) :
    (∀ u, u ∈ getUnknowns vs e ↔ u ∈ vs ∧ u.solved = false ∧ e.has u.name = true) ∧
    (getUnknowns vs e).Sublist vs := by
  unfold getUnknowns
  rw [foldl_filter (p := fun u => e.has u.name && u.solved == false), List.nil_append]
  refine ⟨fun u => ?_, List.filter_sublist⟩
  simp only [List.mem_filter, Bool.and_eq_true, beq_iff_eq]
  constructor
  · rintro ⟨a, b, c⟩; exact ⟨a, c, b⟩
  · rintro ⟨a, b, c⟩; exact ⟨a, c, b⟩

/-- `get_variables` returns all listed unknowns that occur, solved or not, in list order. -/
theorem C24_get_variables (vs : List Var) (e : Expr) :
    (∀ u, u ∈ getVariables vs e ↔ u ∈ vs ∧ e.has u.name = true) ∧ (getVariables vs e).Sublist vs := by
  unfold getVariables
  rw [foldl_filter (p := fun u => e.has u.name), List.nil_append]
  exact ⟨fun u => by simp [List.mem_filter], List.filter_sublist⟩

/-- `count_unknowns` is the number of different unsolved unknowns occurring in the expression, for a list without repeated
unknowns. -/
theorem C24_count_unknowns (vs : List Var) (hnd : (vs.map (·.name)).Nodup) (e : Expr) :
    Exactly (UnsolvedIn vs e) (countUnknowns vs e) := by
  refine ⟨(getUnknowns vs e).map (·.name), ?_, by rw [countUnknowns_eq]; simp, ?_⟩
  · unfold getUnknowns
    rw [foldl_filter (p := fun u => e.has u.name && u.solved == false), List.nil_append]
    exact nodup_map_filter hnd
  · intro x
    simp only [List.mem_map, (C24_get_unknowns vs e).1, UnsolvedIn]
    constructor
    · rintro ⟨u, ⟨h1, h2, h3⟩, rfl⟩; exact ⟨⟨u, h1, rfl, h2⟩, h3⟩
    · rintro ⟨⟨u, h1, rfl, h2⟩, h3⟩; exact ⟨u, ⟨h1, h2, h3⟩, rfl⟩

/-- With an unknown listed twice (which `sum_of_angles_transform` does, ik_classes.py:397-398 after 502) it is counted
twice. -/
theorem C24_repeated_unknown_counted_twice :
    countUnknowns [⟨"th_23", false⟩, ⟨"th_23", false⟩] (.un .sin (.sym "th_23")) = 2 := by decide

/-- `find_obj` returns the first listed unknown with the symbol, and None iff there is none. -/
theorem C24_find_obj (s : String) (vs : List Var) :
    (∀ u, findObj s vs = some u ↔ ∃ pre post, vs = pre ++ u :: post ∧ u.name = s ∧ ∀ v ∈ pre, v.name ≠ s) ∧
    (findObj s vs = none ↔ ∀ v ∈ vs, v.name ≠ s) := by
  induction vs with
  | nil => simp [findObj]
  | cons v vs ih =>
    rw [findObj]
    by_cases h : v.name = s
    · rw [if_pos h]
      refine ⟨fun u => ⟨fun hu => ?_, ?_⟩, ?_⟩
      · cases hu; exact ⟨[], vs, rfl, h, by simp⟩
      · rintro ⟨pre, post, h1, h2, h3⟩
        cases pre with
        | nil => cases h1; rfl
        | cons a b => cases h1; exact absurd h (h3 _ (by simp))
      · simp [h]
    · rw [if_neg h]
      refine ⟨fun u => ?_, ?_⟩
      · rw [ih.1 u]
        constructor
        · rintro ⟨pre, post, h1, h2, h3⟩
          exact ⟨v :: pre, post, by rw [h1]; rfl, h2, by simpa [h] using h3⟩
        · rintro ⟨pre, post, h1, h2, h3⟩
          cases pre with
          | nil => cases h1; exact absurd h2 h
          | cons a b =>
            cases h1
            exact ⟨b, post, rfl, h2, fun w hw => h3 w (by simp [hw])⟩
      · rw [ih.2]; simp [h]

/-- Non-vacuity: a list with solved and unsolved unknowns. -/
example : ([⟨"th_1", true⟩, ⟨"th_2", false⟩, ⟨"d_3", false⟩] : List Var).map (·.name) |>.Nodup := by decide
example : countUnknowns [⟨"th_1", true⟩, ⟨"th_2", false⟩, ⟨"d_3", false⟩]
    (.bin .mul (.un .sin (.sym "th_1")) (.bin .add (.sym "th_2") (.sym "d_3"))) = 2 := by decide

/-! ## C22: erank -/

theorem bucketGet_add (k k' : Nat) (e : KEqn) : ∀ d : List (Nat × List KEqn),
    bucketGet k (bucketAdd k' e d) = if k' = k then bucketGet k d ++ [e] else bucketGet k d
  | [] => by simp [bucketAdd, bucketGet]
  | (k'', b) :: d => by
    simp only [bucketAdd]
    by_cases h : k'' = k'
    · subst h
      by_cases hk : k'' = k <;> simp [bucketGet, hk]
    · rw [if_neg h]
      simp only [bucketGet]
      by_cases hk : k'' = k
      · subst hk; simp [Ne.symm h]
      · rw [if_neg hk, if_neg hk, bucketGet_add k k' e d]

theorem bucketAdd_keys (k : Nat) (e : KEqn) : ∀ d : List (Nat × List KEqn),
    (bucketAdd k e d).map (·.1) = if k ∈ d.map (·.1) then d.map (·.1) else d.map (·.1) ++ [k]
  | [] => by simp [bucketAdd]
  | (k', b) :: d => by
    simp only [bucketAdd]
    by_cases h : k' = k
    · simp [h]
    · rw [if_neg h, List.map_cons, bucketAdd_keys k e d]
      simp only [List.map_cons, List.mem_cons, Ne.symm h, false_or]
      split <;> simp

theorem bucket_fold (c : CAS) (k : Nat) : ∀ (l : List KEqn) (d : List (Nat × List KEqn)),
    bucketGet k (l.foldl (fun d e => bucketAdd (opCount c e) e d) d) =
      bucketGet k d ++ l.filter (fun e => opCount c e == k)
  | [], d => by simp
  | e :: l, d => by
    rw [List.foldl_cons, bucket_fold c k l, bucketGet_add]
    by_cases h : opCount c e = k <;> simp [h]

theorem bucket_keys (c : CAS) : ∀ (l : List KEqn) (d : List (Nat × List KEqn)), (d.map (·.1)).Nodup →
    ((l.foldl (fun d e => bucketAdd (opCount c e) e d) d).map (·.1)).Nodup ∧
    ∀ k, k ∈ (l.foldl (fun d e => bucketAdd (opCount c e) e d) d).map (·.1) ↔ k ∈ d.map (·.1) ∨ ∃ e ∈ l, opCount c e = k
  | [], d, h => by simpa using h
  | e :: l, d, h => by
    rw [List.foldl_cons]
    have h' : ((bucketAdd (opCount c e) e d).map (·.1)).Nodup := by
      rw [bucketAdd_keys]
      split
      · exact h
      · rename_i hn
        rw [List.nodup_append]
        refine ⟨h, by simp, ?_⟩
        intro a ha b hb
        simp at hb; subst hb
        intro he; exact hn (he ▸ ha)
    obtain ⟨h1, h2⟩ := bucket_keys c l _ h'
    refine ⟨h1, fun k => ?_⟩
    rw [h2 k, bucketAdd_keys]
    simp only [List.mem_cons, exists_eq_or_imp]
    split
    · rename_i hm
      constructor
      · rintro (h | h)
        · exact .inl h
        · exact .inr (.inr h)
      · rintro (h | h | h)
        · exact .inl h
        · exact .inl (h ▸ hm)
        · exact .inr h
    · simp only [List.mem_append, List.mem_singleton]
      constructor
      · rintro ((h | h) | h)
        · exact .inl h
        · exact .inr (.inl h.symm)
        · exact .inr (.inr h)
      · rintro (h | h | h)
        · exact .inl (.inl h)
        · exact .inl (.inr h.symm)
        · exact .inr h

theorem foldl_append {f : Nat → List KEqn} : ∀ (ks : List Nat) (s : List KEqn),
    ks.foldl (fun s k => s ++ f k) s = s ++ ks.flatMap f
  | [], s => by simp
  | k :: ks, s => by rw [List.foldl_cons, foldl_append ks]; simp

theorem insertNat_perm (k : Nat) : ∀ l : List Nat, (insertNat k l).Perm (k :: l)
  | [] => .refl _
  | a :: l => by
    rw [insertNat]
    split
    · exact .refl _
    · exact ((insertNat_perm k l).cons a).trans (.swap _ _ _)

theorem sortNat_perm : ∀ l : List Nat, (sortNat l).Perm l
  | [] => .refl _
  | a :: l => (insertNat_perm a _).trans ((sortNat_perm l).cons a)

theorem insertNat_sorted (k : Nat) : ∀ l : List Nat, l.Pairwise (· ≤ ·) → (insertNat k l).Pairwise (· ≤ ·)
  | [], _ => by simp [insertNat]
  | a :: l, h => by
    obtain ⟨h1, h2⟩ := List.pairwise_cons.1 h
    rw [insertNat]
    split
    · rename_i hk
      rw [List.pairwise_cons]
      refine ⟨fun b hb => ?_, h⟩
      rcases List.mem_cons.1 hb with rfl | hb
      · exact hk
      · exact Nat.le_trans hk (h1 b hb)
    · rename_i hk
      rw [List.pairwise_cons]
      refine ⟨fun b hb => ?_, insertNat_sorted k l h2⟩
      rcases List.mem_cons.1 ((insertNat_perm k l).mem_iff.1 hb) with rfl | hb
      · omega
      · exact h1 b hb

theorem sortNat_sorted : ∀ l : List Nat, (sortNat l).Pairwise (· ≤ ·)
  | [] => .nil
  | a :: l => insertNat_sorted a _ (sortNat_sorted l)

/-- `erank` is the concatenation of the groups of equal count, by increasing count. -/
theorem erank_eq (c : CAS) (l : List KEqn) : ∃ keys : List Nat, keys.Nodup ∧ keys.Pairwise (· ≤ ·) ∧
    (∀ k, k ∈ keys ↔ ∃ e ∈ l, opCount c e = k) ∧
    erank c l = keys.flatMap fun k => l.filter (fun e => opCount c e == k) := by
  obtain ⟨h1, h2⟩ := bucket_keys c l [] (by simp)
  refine ⟨sortNat ((l.foldl (fun d e => bucketAdd (opCount c e) e d) []).map (·.1)), ?_, sortNat_sorted _, ?_, ?_⟩
  · exact (sortNat_perm _).nodup_iff.2 h1
  · intro k
    rw [(sortNat_perm _).mem_iff, h2 k]; simp
  · unfold erank
    rw [foldl_append, List.nil_append]
    congr 1
    funext k
    rw [bucket_fold]; simp [bucketGet]

theorem filter_groups (c : CAS) (l : List KEqn) (k : Nat) : ∀ keys : List Nat, keys.Nodup →
    (keys.flatMap fun k' => l.filter (fun e => opCount c e == k')).filter (fun e => opCount c e == k) =
      if k ∈ keys then l.filter (fun e => opCount c e == k) else []
  | [], _ => by simp
  | k' :: ks, h => by
    rw [List.flatMap_cons, List.filter_append, filter_groups c l k ks (List.nodup_cons.1 h).2, List.filter_filter]
    by_cases hk : k' = k
    · subst hk
      rw [if_neg (List.nodup_cons.1 h).1]
      simp
    · have : l.filter (fun e => opCount c e == k && opCount c e == k') = [] := by
        rw [List.filter_eq_nil_iff]
        intro e _ he
        simp only [Bool.and_eq_true, beq_iff_eq] at he
        exact hk (he.2.symm.trans he.1)
      rw [this]
      simp [Ne.symm hk]

/-- C22, order kept: the equations of each operation count are the same, in the same order, as before. -/
theorem C22_erank_stable (c : CAS) (l : List KEqn) (k : Nat) :
    (erank c l).filter (fun e => c.ops e.lhs + c.ops e.rhs == k) = l.filter (fun e => c.ops e.lhs + c.ops e.rhs == k) := by
  have hops : (fun e : KEqn => c.ops e.lhs + c.ops e.rhs == k) = fun e => opCount c e == k := by
    funext e; rw [Nat.add_comm]; rfl
  rw [hops]
  obtain ⟨keys, h1, _, h3, h4⟩ := erank_eq c l
  rw [h4, filter_groups c l k keys h1]
  split
  · rfl
  · rename_i hn
    symm
    rw [List.filter_eq_nil_iff]
    intro e he hk
    exact hn ((h3 k).2 ⟨e, he, by simpa using hk⟩)

/-- C22: the result is a permutation of the argument. -/
theorem C22_erank_perm (c : CAS) (l : List KEqn) : (erank c l).Perm l := by
  rw [List.perm_iff_count]
  intro e
  have h := congrArg (List.count e) (C22_erank_stable c l (c.ops e.lhs + c.ops e.rhs))
  rwa [List.count_filter (by simp), List.count_filter (by simp)] at h

/-- C22: the result is sorted by operation count. -/
theorem C22_erank_sorted (c : CAS) (l : List KEqn) :
    (erank c l).Pairwise (fun a b => c.ops a.lhs + c.ops a.rhs ≤ c.ops b.lhs + c.ops b.rhs) := by
  suffices h : (erank c l).Pairwise (fun a b => opCount c a ≤ opCount c b) from
    h.imp fun {a b} hab => by simp only [opCount] at hab; omega
  obtain ⟨keys, _, h2, _, h4⟩ := erank_eq c l
  rw [h4, List.pairwise_flatMap]
  constructor
  · intro k _
    apply List.pairwise_of_forall_mem_list
    intro a ha b hb
    simp only [List.mem_filter, beq_iff_eq] at ha hb
    omega
  · apply h2.imp
    intro k k' hkk a ha b hb
    simp only [List.mem_filter, beq_iff_eq] at ha hb
    omega

/-- Non-vacuity: three equations, two with the same count; the order changes. -/
def demoCas : CAS where
  eqv a b := a == b
  ops := let rec go : Expr → Nat | .num _ => 0 | .sym _ => 0 | .un _ a => go a + 1 | .bin _ a b => go a + go b + 1
         go
  sub a b := .bin .add a (.un .neg b)
example : erank demoCas [⟨.num 1, .un .sin (.sym "a")⟩, ⟨.num 0, .sym "b"⟩, ⟨.num 2, .un .cos (.sym "c")⟩] =
    [⟨.num 0, .sym "b"⟩, ⟨.num 1, .un .sin (.sym "a")⟩, ⟨.num 2, .un .cos (.sym "c")⟩] := by decide +kernel

/-! ## C21: classification -/

theorem exactly_unique {P : String → Prop} {k k' : Nat} (h : Exactly P k) (h' : Exactly P k') : k = k' := by
  obtain ⟨l, h1, h2, h3⟩ := h
  obtain ⟨l', h1', h2', h3'⟩ := h'
  rw [← h2, ← h2']
  exact ((List.perm_ext_iff_of_nodup h1 h1').2 fun x => (h3 x).trans (h3' x).symm).length_eq

/-- The sum over both sides is the number of unknowns if none is on both sides. -/
theorem num_of_sum {vs : List Var} (hnd : (vs.map (·.name)).Nodup) {e : KEqn} (ho : OneSided vs e) :
    NumUnsolved vs e (countUnknowns vs e.lhs + countUnknowns vs e.rhs) := by
  obtain ⟨l, h1, h2, h3⟩ := C24_count_unknowns vs hnd e.lhs
  obtain ⟨l', h1', h2', h3'⟩ := C24_count_unknowns vs hnd e.rhs
  refine ⟨l ++ l', ?_, by simp [h2, h2'], fun x => ?_⟩
  · rw [List.nodup_append]
    refine ⟨h1, h1', ?_⟩
    intro a ha b hb hab
    subst hab
    exact ho a ⟨(h3 a).1 ha, (h3' a).1 hb⟩
  · rw [List.mem_append, h3, h3']

/-- list number k = 1, 2, 3 -/
def Lists.at (L : Lists) : Nat → List KEqn
  | 1 => L.l1
  | 2 => L.l2
  | 3 => L.l3p
  | _ => []

/-- The class of an equation as the code computes it. -/
def cls (vs : List Var) (e : KEqn) : Nat := min 3 (countUnknowns vs e.lhs + countUnknowns vs e.rhs)

theorem scanEntry_at (c : CAS) (vs : List Var) (L : Lists) (e : KEqn) {k : Nat} (hk : 1 ≤ k) :
    (scanEntry c vs L e).at k = if cls vs e = k then (if k ≤ 3 then addNew c e (L.at k) else []) else L.at k := by
  unfold scanEntry cls
  generalize countUnknowns vs e.lhs + countUnknowns vs e.rhs = n
  match k, hk with
  | 1, _ =>
    by_cases h : n = 1
    · subst h; simp [Lists.at]
    · have : ¬ min 3 n = 1 := by omega
      rw [if_neg this]
      by_cases h2 : n = 2
      · subst h2; simp [Lists.at]
      · by_cases h3 : n > 2 <;> simp [h, h2, h3, Lists.at]
  | 2, _ =>
    by_cases h : n = 1
    · subst h; simp [Lists.at]
    · by_cases h2 : n = 2
      · subst h2; simp [Lists.at]
      · have : ¬ min 3 n = 2 := by omega
        rw [if_neg this]
        by_cases h3 : n > 2 <;> simp [h, h2, h3, Lists.at]
  | 3, _ =>
    by_cases h : n = 1
    · subst h; simp [Lists.at]
    · by_cases h2 : n = 2
      · subst h2; simp [Lists.at]
      · by_cases h3 : n > 2
        · have : min 3 n = 3 := by omega
          simp [h, h2, h3, Lists.at, this]
        · have : ¬ min 3 n = 3 := by omega
          simp [h, h2, h3, Lists.at, this]
  | k + 4, _ =>
    have : ¬ min 3 n = k + 4 := by omega
    simp [Lists.at, this]

theorem scanAux_at (vs : List Var) (L : Lists) (e : KEqn) {k : Nat} :
    (scanAux vs L e).at k = if cls vs e = k ∧ 1 ≤ k ∧ k ≤ 2 then L.at k ++ [e] else L.at k := by
  unfold scanAux cls
  generalize countUnknowns vs e.lhs + countUnknowns vs e.rhs = n
  match k with
  | 0 => by_cases h : n = 1 <;> by_cases h2 : n = 2 <;> simp [Lists.at]
  | 1 =>
    by_cases h : n = 1
    · subst h; simp [Lists.at]
    · have : ¬ min 3 n = 1 := by omega
      by_cases h2 : n = 2
      · subst h2; simp [Lists.at]
      · simp [h, h2, Lists.at, this]
  | 2 =>
    by_cases h : n = 1
    · subst h; simp [Lists.at]
    · by_cases h2 : n = 2
      · subst h2; simp [Lists.at]
      · have : ¬ min 3 n = 2 := by omega
        simp [h, h2, Lists.at, this]
  | 3 => by_cases h : n = 1 <;> by_cases h2 : n = 2 <;> simp [h, h2, Lists.at]
  | k + 4 => simp [Lists.at]

/-- Specification: two equations are equal when both their left sides and their right sides are. -/
def SameEqn (c : CAS) (a b : KEqn) : Prop := c.eqv a.lhs b.lhs = true ∧ c.eqv a.rhs b.rhs = true

theorem isIn_iff {c : CAS} {e : KEqn} {l : List KEqn} : isIn c e l = true ↔ ∃ x ∈ l, SameEqn c x e := by
  simp [isIn, KEqn.eq, SameEqn]

theorem scan_fold (c : CAS) (hr : ∀ a, c.eqv a a = true) (vs : List Var) {k : Nat} (hk : 1 ≤ k) (hk3 : k ≤ 3) :
    ∀ (es : List KEqn) (L : Lists),
      (∀ e ∈ (es.foldl (scanEntry c vs) L).at k, e ∈ L.at k ∨ (e ∈ es ∧ cls vs e = k)) ∧
      (∀ e ∈ L.at k, e ∈ (es.foldl (scanEntry c vs) L).at k) ∧
      (∀ e ∈ es, cls vs e = k → ∃ x ∈ (es.foldl (scanEntry c vs) L).at k, SameEqn c x e)
  | [], L => by simp
  | e :: es, L => by
    rw [List.foldl_cons]
    obtain ⟨h1, h2, h3⟩ := scan_fold c hr vs hk hk3 es (scanEntry c vs L e)
    have hat := scanEntry_at c vs L e hk
    rw [if_pos hk3] at hat
    refine ⟨?_, ?_, ?_⟩
    · intro x hx
      rcases h1 x hx with h | ⟨h, h'⟩
      · rw [hat] at h
        split at h
        · rename_i hc
          unfold addNew at h
          split at h
          · exact .inl h
          · rcases List.mem_append.1 h with h | h
            · exact .inl h
            · simp at h; subst h; exact .inr ⟨by simp, hc⟩
        · exact .inl h
      · exact .inr ⟨by simp [h], h'⟩
    · intro x hx
      apply h2
      rw [hat]
      split
      · unfold addNew; split
        · exact hx
        · simp [hx]
      · exact hx
    · intro x hx hc
      rcases List.mem_cons.1 hx with rfl | hx
      · rw [if_pos hc] at hat
        have : ∃ y ∈ (scanEntry c vs L x).at k, SameEqn c y x := by
          rw [hat]; unfold addNew
          split
          · rename_i h; exact isIn_iff.1 h
          · exact ⟨x, by simp, by simp [SameEqn, hr]⟩
        obtain ⟨y, hy, he⟩ := this
        exact ⟨y, h2 y hy, he⟩
      · exact h3 x hx hc

theorem aux_fold (vs : List Var) {k : Nat} : ∀ (es : List KEqn) (L : Lists),
    (es.foldl (scanAux vs) L).at k = L.at k ++ es.filter (fun e => decide (cls vs e = k ∧ 1 ≤ k ∧ k ≤ 2))
  | [], L => by simp
  | e :: es, L => by
    rw [List.foldl_cons, aux_fold vs es, scanAux_at]
    by_cases h : cls vs e = k ∧ 1 ≤ k ∧ k ≤ 2
    · rw [if_pos h, List.filter_cons_of_pos (by simpa using h)]; simp
    · rw [if_neg h, List.filter_cons_of_neg (by simpa using h)]

theorem rank_at (c : CAS) (L : Lists) (k : Nat) : ((L.rank c).at k).Perm (L.at k) := by
  match k with
  | 0 => exact .refl _
  | 1 => exact C22_erank_perm c _
  | 2 => exact C22_erank_perm c _
  | 3 => exact C22_erank_perm c _
  | k + 4 => exact .refl _

theorem foldl_flat {α β : Type} (f : β → α → β) (g : MEqn → List α) : ∀ (ms : List MEqn) (b : β),
    ms.foldl (fun b m => (g m).foldl f b) b = (ms.flatMap g).foldl f b
  | [], b => rfl
  | m :: ms, b => by rw [List.foldl_cons, List.flatMap_cons, List.foldl_append, foldl_flat f g ms]

theorem mem_entries {m : MEqn} {e : KEqn} : e ∈ m.entries ↔ ∃ i j, e = m.entry i j := by
  simp only [MEqn.entries, List.mem_flatMap, List.mem_map]
  constructor
  · rintro ⟨i, _, j, _, h⟩; exact ⟨i, j, h.symm⟩
  · rintro ⟨i, j, h⟩; exact ⟨i, List.mem_finRange i, j, List.mem_finRange j, h.symm⟩

/-- What `scan_for_equations` does, for all inputs, in terms of the count the code uses (both sides added up):
it raises iff there is no matrix equation; otherwise each list holds matrix entries and auxiliary equations of its class only, and
each matrix entry of class 1, 2, 3 has an equal equation in its list. -/
theorem C21_scan_general (c : CAS) (hr : ∀ a, c.eqv a a = true) (ms : List MEqn) (aux : List KEqn) (vs : List Var) :
    (ms = [] → scanForEquations c ms aux vs = .error .assertion) ∧
    (ms ≠ [] → ∃ L, scanForEquations c ms aux vs = .ok L ∧ ∀ k, 1 ≤ k → k ≤ 3 →
      (∀ e ∈ L.at k, cls vs e = k ∧ ((∃ m ∈ ms, ∃ i j, e = m.entry i j) ∨ (e ∈ aux ∧ k ≤ 2))) ∧
      (∀ m ∈ ms, ∀ i j, cls vs (m.entry i j) = k → ∃ x ∈ L.at k, SameEqn c x (m.entry i j)) ∧
      (∀ e ∈ aux, cls vs e = k → k ≤ 2 → e ∈ L.at k)) := by
  constructor
  · rintro rfl; rfl
  · intro hms
    refine ⟨_, by unfold scanForEquations; rw [if_pos (List.length_pos_iff.2 hms)], fun k h1 h3 => ?_⟩
    rw [foldl_flat]
    obtain ⟨s1, _, s3⟩ := scan_fold c hr vs h1 h3 (ms.flatMap MEqn.entries) {}
    have hp := fun e => (rank_at c (aux.foldl (scanAux vs) ((ms.flatMap MEqn.entries).foldl (scanEntry c vs) {})) k).mem_iff (a := e)
    refine ⟨?_, ?_, ?_⟩
    · intro e he
      rw [hp, aux_fold, List.mem_append] at he
      rcases he with he | he
      · rcases s1 e he with h | ⟨h, h'⟩
        · match k, h1 with
          | 1, _ => simp [Lists.at] at h
          | 2, _ => simp [Lists.at] at h
          | 3, _ => simp [Lists.at] at h
          | k + 4, _ => simp [Lists.at] at h
        · obtain ⟨m, hm, he⟩ := List.mem_flatMap.1 h
          exact ⟨h', .inl ⟨m, hm, mem_entries.1 he⟩⟩
      · simp only [List.mem_filter, decide_eq_true_eq] at he
        exact ⟨he.2.1, .inr ⟨he.1, he.2.2.2⟩⟩
    · intro m hm i j hc
      obtain ⟨x, hx, he⟩ := s3 (m.entry i j) (List.mem_flatMap.2 ⟨m, hm, mem_entries.2 ⟨i, j, rfl⟩⟩) hc
      refine ⟨x, ?_, he⟩
      rw [hp, aux_fold, List.mem_append]
      exact .inl hx
    · intro e he hc h2
      rw [hp, aux_fold, List.mem_append]
      right
      simp [he, hc, h1, h2]

/-- C21 for a list of unknowns without repetitions and equations that have no unsolved unknown on both sides: the lists hold
equations with exactly one, exactly two, and at least three different unsolved unknowns, all of them from the
given equations, and every matrix entry with at least one unsolved unknown is (up to equality) in the list for its number.
Missing: unknowns on both sides, where it is false (below). -/
theorem C21_scan_partial (c : CAS) (hr : ∀ a, c.eqv a a = true) (ms : List MEqn) (aux : List KEqn) (vs : List Var)
    (hnd : (vs.map (·.name)).Nodup) (hms : ms ≠ [])
    (ho : ∀ m ∈ ms, ∀ i j, OneSided vs (m.entry i j)) (hoa : ∀ e ∈ aux, OneSided vs e) :
    ∃ L, scanForEquations c ms aux vs = .ok L ∧
      (∀ e ∈ L.l1, NumUnsolved vs e 1) ∧ (∀ e ∈ L.l2, NumUnsolved vs e 2) ∧
      (∀ e ∈ L.l3p, ∃ n, 3 ≤ n ∧ NumUnsolved vs e n) ∧
      (∀ e ∈ L.l1 ++ L.l2 ++ L.l3p, e ∈ aux ∨ ∃ m ∈ ms, ∃ i j, e = m.entry i j) ∧
      ∀ m ∈ ms, ∀ i j, ∀ n, NumUnsolved vs (m.entry i j) n →
        (n = 1 → ∃ x ∈ L.l1, SameEqn c x (m.entry i j)) ∧
        (n = 2 → ∃ x ∈ L.l2, SameEqn c x (m.entry i j)) ∧
        (3 ≤ n → ∃ x ∈ L.l3p, SameEqn c x (m.entry i j)) := by
  obtain ⟨L, hL, h⟩ := (C21_scan_general c hr ms aux vs).2 hms
  have hos : ∀ (k : Nat), 1 ≤ k → k ≤ 3 → ∀ e ∈ L.at k, OneSided vs e := by
    intro k h1 h3 e he
    rcases ((h k h1 h3).1 e he).2 with ⟨m, hm, i, j, rfl⟩ | ⟨he, _⟩
    · exact ho m hm i j
    · exact hoa e he
  have hcl : ∀ (k : Nat), 1 ≤ k → k ≤ 3 → ∀ e ∈ L.at k, ∃ n, min 3 n = k ∧ NumUnsolved vs e n :=
    fun k h1 h3 e he => ⟨_, ((h k h1 h3).1 e he).1, num_of_sum hnd (hos k h1 h3 e he)⟩
  refine ⟨L, hL, ?_, ?_, ?_, ?_, ?_⟩
  · intro e he
    obtain ⟨n, hn, h'⟩ := hcl 1 (by omega) (by omega) e he
    rwa [show n = 1 by omega] at h'
  · intro e he
    obtain ⟨n, hn, h'⟩ := hcl 2 (by omega) (by omega) e he
    rwa [show n = 2 by omega] at h'
  · intro e he
    obtain ⟨n, hn, h'⟩ := hcl 3 (by omega) (by omega) e he
    exact ⟨n, by omega, h'⟩
  · intro e he
    have : ∃ k, 1 ≤ k ∧ k ≤ 3 ∧ e ∈ L.at k := by
      simp only [List.mem_append] at he
      rcases he with (he | he) | he
      · exact ⟨1, by omega, by omega, he⟩
      · exact ⟨2, by omega, by omega, he⟩
      · exact ⟨3, by omega, by omega, he⟩
    obtain ⟨k, h1, h3, he⟩ := this
    rcases ((h k h1 h3).1 e he).2 with h' | h'
    · exact .inr h'
    · exact .inl h'.1
  · intro m hm i j n hn
    have hn' := exactly_unique hn (num_of_sum hnd (ho m hm i j))
    refine ⟨fun hk => ?_, fun hk => ?_, fun hk => ?_⟩
    · exact (h 1 (by omega) (by omega)).2.1 m hm i j (by unfold cls; omega)
    · exact (h 2 (by omega) (by omega)).2.1 m hm i j (by unfold cls; omega)
    · exact (h 3 (by omega) (by omega)).2.1 m hm i j (by unfold cls; omega)

def demoM (l r : Expr) : MEqn :=
  { td := fun i j => if i = 0 ∧ j = 0 then l else .num 0, ts := fun i j => if i = 0 ∧ j = 0 then r else .num 0 }

def okLists : Except Err Lists → Option Lists
  | .ok L => some L
  | .error _ => none

/-- C21 for `scan_Mequation` (one matrix equation): each list holds entries of the first three rows and auxiliary
equations of its class only, and every one of them of class 1, 2, 3 has an equal equation in its list. -/
theorem C21_scan_mequation (c : CAS) (hr : ∀ a, c.eqv a a = true) (m : MEqn) (vs : List Var) {k : Nat}
    (h1 : 1 ≤ k) (h3 : k ≤ 3) :
    (∀ e ∈ (scanMequation c m vs).at k,
      cls vs e = k ∧ (e ∈ m.aux ∨ ∃ (i : Fin 3) (j : Fin 4), e = ⟨m.td i j, m.ts i j⟩)) ∧
    (∀ (i : Fin 3) (j : Fin 4), cls vs ⟨m.td i j, m.ts i j⟩ = k →
      ∃ x ∈ (scanMequation c m vs).at k, SameEqn c x ⟨m.td i j, m.ts i j⟩) ∧
    (∀ e ∈ m.aux, cls vs e = k → ∃ x ∈ (scanMequation c m vs).at k, SameEqn c x e) := by
  obtain ⟨s1, _, s3⟩ := scan_fold c hr vs h1 h3 m.kequationList {}
  have hp := fun e => (rank_at c (m.kequationList.foldl (scanEntry c vs) {}) k).mem_iff (a := e)
  have hm : ∀ e, e ∈ m.kequationList ↔ e ∈ m.aux ∨ ∃ (i : Fin 3) (j : Fin 4), e = ⟨m.td i j, m.ts i j⟩ := by
    intro e
    simp only [MEqn.kequationList, List.mem_append, List.mem_flatMap, List.mem_map, List.mem_finRange, true_and]
    constructor
    · rintro (⟨i, j, h⟩ | h)
      · exact .inr ⟨i, j, h.symm⟩
      · exact .inl h
    · rintro (h | ⟨i, j, h⟩)
      · exact .inr h
      · exact .inl ⟨i, j, h.symm⟩
  refine ⟨?_, ?_, ?_⟩
  · intro e he
    rw [scanMequation, hp] at he
    rcases s1 e he with h | ⟨h, h'⟩
    · match k, h1 with
      | 1, _ => simp [Lists.at] at h
      | 2, _ => simp [Lists.at] at h
      | 3, _ => simp [Lists.at] at h
      | k + 4, _ => simp [Lists.at] at h
    · exact ⟨h', (hm e).1 h⟩
  · intro i j hc
    obtain ⟨x, hx, he⟩ := s3 _ ((hm _).2 (.inr ⟨i, j, rfl⟩)) hc
    exact ⟨x, by rw [scanMequation, hp]; exact hx, he⟩
  · intro e he hc
    obtain ⟨x, hx, he⟩ := s3 _ ((hm _).2 (.inl he)) hc
    exact ⟨x, by rw [scanMequation, hp]; exact hx, he⟩

/-- C21 is false of the code: x = 2 - x has one unknown but is put into the list for two. -/
theorem C21_both_sides_violation :
    okLists (scanForEquations demoCas [demoM (.sym "x") (.bin .add (.num 2) (.un .neg (.sym "x")))] [] [⟨"x", false⟩]) =
      some { l1 := [], l2 := [⟨.sym "x", .bin .add (.num 2) (.un .neg (.sym "x"))⟩], l3p := [] } := by decide +kernel

/-- Non-vacuity of `C21_scan_mequation`. -/
example : (scanMequation demoCas { demoM (.sym "r") (.un .sin (.sym "x")) with
      aux := [⟨.sym "z", .bin .add (.sym "x") (.sym "y")⟩] } [⟨"x", false⟩, ⟨"y", true⟩, ⟨"z", false⟩]) =
    { l1 := [⟨.sym "r", .un .sin (.sym "x")⟩], l2 := [⟨.sym "z", .bin .add (.sym "x") (.sym "y")⟩], l3p := [] } := by
  decide +kernel
/-- Non-vacuity: r = sin(x), with x unsolved and y solved. -/
example : okLists (scanForEquations demoCas [demoM (.sym "r") (.un .sin (.sym "x"))]
      [⟨.sym "z", .bin .add (.sym "x") (.sym "y")⟩] [⟨"x", false⟩, ⟨"y", true⟩, ⟨"z", false⟩]) =
    some { l1 := [⟨.sym "r", .un .sin (.sym "x")⟩], l2 := [⟨.sym "z", .bin .add (.sym "x") (.sym "y")⟩], l3p := [] } := by
  decide +kernel
example : OneSided [⟨"x", false⟩, ⟨"y", true⟩, ⟨"z", false⟩] ⟨.sym "z", .bin .add (.sym "x") (.sym "y")⟩ := by
  rintro x ⟨⟨_, h⟩, ⟨_, h'⟩⟩
  simp [Expr.has] at h h'
  subst h; simp at h'

/-! ## C25: updateL -/

theorem updAux_at (c : CAS) (vs : List Var) (L : Lists) (e : KEqn) {k : Nat} (h1 : 1 ≤ k) (h3 : k ≤ 3) :
    (updAux c vs L e).at k =
      L.at k ++ if countUnknowns vs (c.sub e.lhs e.rhs) = k then [⟨.num 0, c.sub e.lhs e.rhs⟩] else [] := by
  unfold updAux
  simp only
  generalize countUnknowns vs (c.sub e.lhs e.rhs) = n
  match k, h1, h3 with
  | 1, _, _ =>
    by_cases a : n = 1
    · simp [a, Lists.at]
    · by_cases b : n = 2
      · simp [b, Lists.at]
      · by_cases d : n = 3 <;> simp [a, b, d, Lists.at]
  | 2, _, _ =>
    by_cases a : n = 1
    · simp [a, Lists.at]
    · by_cases b : n = 2
      · simp [b, Lists.at]
      · by_cases d : n = 3 <;> simp [a, b, d, Lists.at]
  | 3, _, _ =>
    by_cases a : n = 1
    · simp [a, Lists.at]
    · by_cases b : n = 2
      · simp [b, Lists.at]
      · by_cases d : n = 3 <;> simp [a, b, d, Lists.at]

theorem updAux_fold (c : CAS) (vs : List Var) {k : Nat} (h1 : 1 ≤ k) (h3 : k ≤ 3) : ∀ (es : List KEqn) (L : Lists),
    (es.foldl (updAux c vs) L).at k = L.at k ++
      (es.filter (fun e => countUnknowns vs (c.sub e.lhs e.rhs) == k)).map fun e => ⟨.num 0, c.sub e.lhs e.rhs⟩
  | [], L => by simp
  | e :: es, L => by
    rw [List.foldl_cons, updAux_fold c vs h1 h3 es, updAux_at c vs L e h1 h3]
    by_cases h : countUnknowns vs (c.sub e.lhs e.rhs) = k
    · rw [if_pos h, List.filter_cons_of_pos (by simpa using h)]; simp
    · rw [if_neg h, List.filter_cons_of_neg (by simpa using h)]; simp

/-- The equation `0 = e.lhs - e.rhs` that `updateL` makes of an auxiliary equation. -/
def moved (c : CAS) (e : KEqn) : KEqn := ⟨.num 0, c.sub e.lhs e.rhs⟩

/-- C25 for robots whose auxiliary equations have at most three unsolved unknowns, with the assumptions of C21 and for a
difference that keeps all symbols (nothing cancels) in the auxiliary equations: after `updateL` the lists hold equations with exactly one, two,
at least three different unsolved unknowns; every matrix entry with an unsolved unknown is (up to equality) in the list for its
number; so is every auxiliary equation (as 0 = lhs − rhs).
Missing: auxiliary equations with four unknowns, which are dropped (below). -/
theorem C25_updateL_partial (c : CAS) (hr : ∀ a, c.eqv a a = true) (ms : List MEqn) (aux : List KEqn) (vs : List Var)
    (hnd : (vs.map (·.name)).Nodup) (hms : ms ≠ [])
    (ho : ∀ m ∈ ms, ∀ i j, OneSided vs (m.entry i j)) (hoa : ∀ e ∈ aux, OneSided vs e)
    (hsub : ∀ e ∈ aux, ∀ x, (c.sub e.lhs e.rhs).has x = true ↔ e.lhs.has x = true ∨ e.rhs.has x = true)
    (h4 : ∀ e ∈ aux, ∀ n, NumUnsolved vs e n → n ≤ 3) :
    ∃ L, updateL c ms aux vs = .ok L ∧
      (∀ e ∈ L.l1, NumUnsolved vs e 1) ∧ (∀ e ∈ L.l2, NumUnsolved vs e 2) ∧
      (∀ e ∈ L.l3p, ∃ n, 3 ≤ n ∧ NumUnsolved vs e n) ∧
      (∀ m ∈ ms, ∀ i j, ∀ n, NumUnsolved vs (m.entry i j) n →
        (n = 1 → ∃ x ∈ L.l1, SameEqn c x (m.entry i j)) ∧
        (n = 2 → ∃ x ∈ L.l2, SameEqn c x (m.entry i j)) ∧
        (3 ≤ n → ∃ x ∈ L.l3p, SameEqn c x (m.entry i j))) ∧
      ∀ e ∈ aux, ∀ n, NumUnsolved vs e n →
        (n = 1 → moved c e ∈ L.l1) ∧ (n = 2 → moved c e ∈ L.l2) ∧ (3 ≤ n → moved c e ∈ L.l3p) := by
  obtain ⟨L, hL, a1, a2, a3, _, a5⟩ := C21_scan_partial c hr ms aux vs hnd hms ho hoa
  have hmv : ∀ e ∈ aux, NumUnsolved vs (moved c e) (countUnknowns vs (c.sub e.lhs e.rhs)) ∧
      NumUnsolved vs e (countUnknowns vs (c.sub e.lhs e.rhs)) := by
    intro e he
    obtain ⟨l, h1, h2, h3⟩ := C24_count_unknowns vs hnd (c.sub e.lhs e.rhs)
    refine ⟨⟨l, h1, h2, fun x => ?_⟩, ⟨l, h1, h2, fun x => ?_⟩⟩
    · rw [h3 x]; simp [moved, UnsolvedIn, Expr.has]
    · rw [h3 x]
      simp only [UnsolvedIn, hsub e he x]
      constructor
      · rintro ⟨a, b | b⟩
        · exact .inl ⟨a, b⟩
        · exact .inr ⟨a, b⟩
      · rintro (⟨a, b⟩ | ⟨a, b⟩)
        · exact ⟨a, .inl b⟩
        · exact ⟨a, .inr b⟩
  have hat : ∀ k, 1 ≤ k → k ≤ 3 → ∀ e, e ∈ (aux.foldl (updAux c vs) L).at k ↔
      e ∈ L.at k ∨ ∃ a ∈ aux, countUnknowns vs (c.sub a.lhs a.rhs) = k ∧ moved c a = e := by
    intro k h1 h3 e
    rw [updAux_fold c vs h1 h3, List.mem_append, List.mem_map]
    simp only [List.mem_filter, beq_iff_eq, moved, and_assoc]
  refine ⟨aux.foldl (updAux c vs) L, by simp [updateL, hL], ?_, ?_, ?_, ?_, ?_⟩
  · intro e he
    rcases (hat 1 (by omega) (by omega) e).1 he with h | ⟨a, ha, hk, rfl⟩
    · exact a1 e h
    · have := (hmv a ha).1; rwa [hk] at this
  · intro e he
    rcases (hat 2 (by omega) (by omega) e).1 he with h | ⟨a, ha, hk, rfl⟩
    · exact a2 e h
    · have := (hmv a ha).1; rwa [hk] at this
  · intro e he
    rcases (hat 3 (by omega) (by omega) e).1 he with h | ⟨a, ha, hk, rfl⟩
    · exact a3 e h
    · have := (hmv a ha).1; rw [hk] at this; exact ⟨3, by omega, this⟩
  · intro m hm i j n hn
    obtain ⟨b1, b2, b3⟩ := a5 m hm i j n hn
    refine ⟨fun h => ?_, fun h => ?_, fun h => ?_⟩
    · obtain ⟨x, hx, he⟩ := b1 h; exact ⟨x, (hat 1 (by omega) (by omega) x).2 (.inl hx), he⟩
    · obtain ⟨x, hx, he⟩ := b2 h; exact ⟨x, (hat 2 (by omega) (by omega) x).2 (.inl hx), he⟩
    · obtain ⟨x, hx, he⟩ := b3 h; exact ⟨x, (hat 3 (by omega) (by omega) x).2 (.inl hx), he⟩
  · intro e he n hn
    have hn' := exactly_unique hn (hmv e he).2
    have hn3 := h4 e he n hn
    refine ⟨fun h => ?_, fun h => ?_, fun h => ?_⟩
    · exact (hat 1 (by omega) (by omega) _).2 (.inr ⟨e, he, by omega, rfl⟩)
    · exact (hat 2 (by omega) (by omega) _).2 (.inr ⟨e, he, by omega, rfl⟩)
    · exact (hat 3 (by omega) (by omega) _).2 (.inr ⟨e, he, by omega, rfl⟩)

/-- th_456 = th_4 + th_5 + th_6, as made by `sum_of_angles_sub` for a three-way sum (ik_classes.py:503) -/
def soa456 : KEqn := ⟨.sym "th_456", .bin .add (.sym "th_4") (.bin .add (.sym "th_5") (.sym "th_6"))⟩

/-- C25 is false of the code: while its four unknowns are unsolved, the definition of a three-way sum of angles is in none of the
lists. -/
theorem C25_three_way_sum_violation :
    okLists (updateL demoCas [demoM (.num 0) (.num 0)] [soa456]
      [⟨"th_4", false⟩, ⟨"th_5", false⟩, ⟨"th_6", false⟩, ⟨"th_456", false⟩]) = some {} := by decide +kernel

/-- Non-vacuity of C25: th_23 = th_2 + th_3 with th_2 solved. -/
example : okLists (updateL demoCas [demoM (.sym "r") (.un .sin (.sym "th_3"))]
      [⟨.sym "th_23", .bin .add (.sym "th_2") (.sym "th_3")⟩] [⟨"th_2", true⟩, ⟨"th_3", false⟩, ⟨"th_23", false⟩]) =
    some { l1 := [⟨.sym "r", .un .sin (.sym "th_3")⟩],
           l2 := [⟨.sym "th_23", .bin .add (.sym "th_2") (.sym "th_3")⟩,
                  ⟨.num 0, .bin .add (.sym "th_23") (.un .neg (.bin .add (.sym "th_2") (.sym "th_3")))⟩], l3p := [] } := by
  decide +kernel
example : ∀ a b : Expr, ∀ x, (demoCas.sub a b).has x = true ↔ a.has x = true ∨ b.has x = true := by
  intro a b x; simp [demoCas, Expr.has]

end Verif.Eqn
