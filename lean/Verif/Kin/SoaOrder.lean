import Verif.Kin.SoaProps
/-!
# C63: which unknowns the sum-of-angles transform adds, and what depends on the order of iteration of a set

`expr.find(...)` (ik_classes.py:426) returns a python set; the matches are sorted by their number of summands only, so the order among the matches
with the same number of summands is that of the set, which changes with the hash seed. In the model this order is that of the list `find e`.
-/
namespace Verif.Kin
open Verif.Sym

/-- Specification: `v` is the variable for the sum matched by `m`: its index consists of the indices of the summands, in ascending order, and its name
is `th_` followed by its index. -/
def SumVar (vars : List Var) (m : Match) (v : Var) : Prop :=
  ∃ ds : List (Fin 10), List.Forall₂ (fun x d => ∃ u ∈ vars, x = .sym u.symbol ∧ u.n = [d]) (varlist m) ds ∧
    v.n.Perm ds ∧ v.n.Pairwise (· ≤ ·) ∧ v.symbol = thName v.n

/-- The summands of the matches are joint variables (and there is one at least). -/
def OfJoints (vars : List Var) (ms : List Match) : Prop :=
  ∀ m ∈ ms, varlist m ≠ [] ∧ ∀ x ∈ varlist m, ∃ v ∈ vars, x = .sym v.symbol

/-! ### Indices -/

theorem lookup_append {vars ext : List Var} {x : Expr} (hb : BaseVars vars) (h : ∃ v ∈ vars, x = .sym v.symbol) :
    ∃ u ∈ vars, x = .sym u.symbol ∧ getVariableIndex (vars ++ ext) x = .ok u.n := by
  induction vars with
  | nil => obtain ⟨v, hv, _⟩ := h; cases hv
  | cons w vs ih =>
    have hw : w.n ≠ [] := by
      obtain ⟨d, hd⟩ := hb w List.mem_cons_self
      rw [hd]; simp
    by_cases hx : x = .sym w.symbol
    · exact ⟨w, List.mem_cons_self, hx, by rw [List.cons_append, getVariableIndex, if_neg hw, if_pos hx]⟩
    · obtain ⟨v, hv, hxv⟩ := h
      rcases List.mem_cons.mp hv with rfl | hv
      · exact absurd hxv hx
      · obtain ⟨u, hu, hux, hg⟩ := ih (fun v hv => hb v (List.mem_cons_of_mem _ hv)) ⟨v, hv, hxv⟩
        exact ⟨u, List.mem_cons_of_mem _ hu, hux, by rw [List.cons_append, getVariableIndex, if_neg hw, if_neg hx, hg]⟩

theorem mapM_lookup {vars ext : List Var} (hb : BaseVars vars) : ∀ (vl : List Expr), (∀ x ∈ vl, ∃ v ∈ vars, x = .sym v.symbol) →
    ∃ ds : List (Fin 10), List.Forall₂ (fun x d => ∃ u ∈ vars, x = .sym u.symbol ∧ u.n = [d]) vl ds ∧
      vl.mapM (getVariableIndex (vars ++ ext)) = .ok (ds.map fun d => [d])
  | [], _ => ⟨[], .nil, rfl⟩
  | x :: vl, h => by
    obtain ⟨u, hu, hx, hg⟩ := lookup_append (ext := ext) hb (h x List.mem_cons_self)
    obtain ⟨d, hd⟩ := hb u hu
    obtain ⟨ds, h1, h2⟩ := mapM_lookup hb vl (fun y hy => h y (List.mem_cons_of_mem _ hy))
    refine ⟨d :: ds, .cons ⟨u, hu, hx, hd⟩ h1, ?_⟩
    rw [List.mapM_cons, hg, h2, hd]
    rfl

theorem insertStr_single (d : Fin 10) : ∀ (l : List (Fin 10)), l.Pairwise (· ≤ ·) →
    ∃ l' : List (Fin 10), insertStr [d] (l.map fun d => [d]) = l'.map (fun d => [d]) ∧ l'.Perm (d :: l) ∧ l'.Pairwise (· ≤ ·)
  | [], _ => ⟨[d], rfl, .refl _, List.pairwise_singleton _ _⟩
  | e :: l, h => by
    have hle : strLe [d] [e] = decide (d ≤ e) := by
      simp only [strLe, Bool.and_true]
      rcases lt_trichotomy d e with h | h | h
      · simp [h, h.le]
      · simp [h]
      · simp [h.not_ge, h.not_gt, h.ne']
    simp only [List.map_cons, insertStr, hle]
    by_cases hde : d ≤ e
    · refine ⟨d :: e :: l, by simp [hde], .refl _, ?_⟩
      rw [List.pairwise_cons] at h ⊢
      refine ⟨?_, List.pairwise_cons.2 h⟩
      intro x hx
      rcases List.mem_cons.mp hx with rfl | hx
      · exact hde
      · exact hde.trans (h.1 x hx)
    · rw [List.pairwise_cons] at h
      obtain ⟨l', h1, h2, h3⟩ := insertStr_single d l h.2
      refine ⟨e :: l', by simp [hde, h1], (h2.cons e).trans (.swap _ _ _), ?_⟩
      rw [List.pairwise_cons]
      refine ⟨fun x hx => ?_, h3⟩
      rcases List.mem_cons.mp (h2.mem_iff.1 hx) with rfl | hx
      · exact (not_le.1 hde).le
      · exact h.1 x hx

theorem sortStr_single : ∀ (l : List (Fin 10)),
    ∃ l' : List (Fin 10), sortStr (l.map fun d => [d]) = l'.map (fun d => [d]) ∧ l'.Perm l ∧ l'.Pairwise (· ≤ ·)
  | [] => ⟨[], rfl, .refl _, .nil⟩
  | d :: l => by
    obtain ⟨l1, h1, h2, h3⟩ := sortStr_single l
    obtain ⟨l2, k1, k2, k3⟩ := insertStr_single d l1 h3
    refine ⟨l2, ?_, k2.trans (h2.cons d), k3⟩
    rw [← k1, ← h1]; rfl

theorem flatten_single (l : List (Fin 10)) : (l.map fun d => [d]).flatten = l := by
  induction l with
  | nil => rfl
  | cons a l ih => simp [ih]

/-- The index computed for a match, whatever has been added to the list of variables. -/
theorem newIndex_known {vars : List Var} (hb : BaseVars vars) {vl : List Expr} (h : ∀ x ∈ vl, ∃ v ∈ vars, x = .sym v.symbol) :
    ∃ ni ds : List (Fin 10), List.Forall₂ (fun x d => ∃ u ∈ vars, x = .sym u.symbol ∧ u.n = [d]) vl ds ∧ ni.Perm ds ∧
      ni.Pairwise (· ≤ ·) ∧ ∀ ext, newIndex (vars ++ ext) vl = .ok ni := by
  obtain ⟨ds, h1, h2⟩ := mapM_lookup (ext := []) hb vl h
  obtain ⟨l', k1, k2, k3⟩ := sortStr_single ds
  refine ⟨l', ds, h1, k2, k3, fun ext => ?_⟩
  have hsame : ∀ ext, vl.mapM (getVariableIndex (vars ++ ext)) = .ok (ds.map fun d => [d]) := by
    intro ext
    rw [← h2]
    clear h2 h1 k1 k2 k3 ds l'
    induction vl with
    | nil => rfl
    | cons x vl ih =>
      rw [List.mapM_cons, List.mapM_cons, ih (fun y hy => h y (List.mem_cons_of_mem _ hy))]
      have : ∀ (vs : List Var), BaseVars vs → (∃ v ∈ vs, x = .sym v.symbol) →
          getVariableIndex (vs ++ ext) x = getVariableIndex (vs ++ []) x := by
        intro vs
        induction vs with
        | nil => rintro _ ⟨v, hv, _⟩; cases hv
        | cons w vs ih =>
          rintro hb ⟨v, hv, hx⟩
          simp only [List.cons_append, getVariableIndex]
          by_cases hw : x = .sym w.symbol
          · simp [hw]
          · rcases List.mem_cons.mp hv with rfl | hv
            · exact absurd hx hw
            · rw [ih (fun v hv => hb v (List.mem_cons_of_mem _ hv)) ⟨v, hv, hx⟩]
      rw [this vars hb (h x List.mem_cons_self)]
  simp only [newIndex, hsame ext]
  simp only [bind, Except.bind, pure, Except.pure]
  rw [k1, flatten_single]

theorem sumVar_unique {vars : List Var} (hd : (vars.map (·.symbol)).Nodup) {m : Match} {v w : Var} (hv : SumVar vars m v)
    (hw : SumVar vars m w) : v = w := by
  obtain ⟨ds, h1, h2, h3, h4⟩ := hv
  obtain ⟨es, k1, k2, k3, k4⟩ := hw
  have hde : ds = es := by
    clear h2 k2
    generalize varlist m = vl at h1 k1
    induction h1 generalizing es with
    | nil => cases k1; rfl
    | cons hx _ ih =>
      cases k1 with
      | cons hy k1 =>
        rw [ih _ k1]
        obtain ⟨u, hu, hxu, hun⟩ := hx
        obtain ⟨u', hu', hxu', hun'⟩ := hy
        rw [hxu] at hxu'
        have hs : u.symbol = u'.symbol := by injection hxu'
        have : u = u' := List.inj_on_of_nodup_map hd hu hu' hs
        subst this
        rw [hun] at hun'
        injection hun' with h
        rw [h]
  subst hde
  have hn : v.n = w.n := (h2.trans k2.symm).eq_of_pairwise (fun a b _ _ h h' => le_antisymm h h') h3 k3
  obtain ⟨vs, vn⟩ := v
  obtain ⟨ws, wn⟩ := w
  simp only at hn h4 k4
  subst hn
  rw [h4, k4]

/-! ### The loop -/

/-- What is known of the list of variables during the transform: the joint variables, and further ones named after their index. -/
structure Ext (vars cur : List Var) (New : Var → Prop) : Prop where
  prefix_ : ∃ ext, cur = vars ++ ext ∧ (∀ v ∈ ext, IsTh v) ∧ ∀ v, v ∈ ext ↔ New v

theorem soaStep_ext {sub : Expr → Expr → Expr → Expr} {vars : List Var} (hb : BaseVars vars) (hd : (vars.map (·.symbol)).Nodup)
    {st : SoaSt} {New : Var → Prop} (hE : Ext vars st.vars New) {m : Match}
    (hm : varlist m ≠ [] ∧ ∀ x ∈ varlist m, ∃ v ∈ vars, x = .sym v.symbol) (hf : (st.found2 || st.found3) = true ∨ 2 ≤ (varlist m).length) :
    ∃ st', soaStep sub st m = .ok st' ∧ (st'.found2 || st'.found3) = true ∧
      Ext vars st'.vars (fun v => New v ∨ (2 ≤ (varlist m).length ∧ SumVar vars m v)) ∧
      ∀ v ∈ st'.newjoint, 2 ≤ (varlist m).length ∧ SumVar vars m v := by
  obtain ⟨ext, hx, hth, hmem⟩ := hE.prefix_
  obtain ⟨ni, ds, h1, h2, h3, h4⟩ := newIndex_known hb hm.2
  have hlen : ni.length = (varlist m).length := h2.length_eq.trans h1.length_eq.symm
  have hl3 : (varlist m).length ≤ 3 := by
    rw [varlist]; exact (List.length_filter_le _ _).trans (by simp)
  have hfl : ((st.found2 || (varlist m).length == 2) || (st.found3 || (varlist m).length == 3)) = true := by
    rcases hf with hf | hf
    · cases h : st.found2 <;> simp_all
    · have : (varlist m).length = 2 ∨ (varlist m).length = 3 := by omega
      rcases this with h | h <;> simp [h]
  have hsv : SumVar vars m ⟨thName ni, ni⟩ := ⟨ds, h1, h2, h3, rfl⟩
  have hne : ni ≠ [] := by
    intro h; rw [h] at hlen; exact hm.1 (List.length_eq_zero_iff.1 hlen.symm)
  unfold soaStep
  simp only [hfl, if_true]
  rw [hx, h4 ext]
  obtain ⟨d, ni', rfl⟩ : ∃ d ni', ni = d :: ni' := by
    cases ni with
    | nil => exact absurd rfl hne
    | cons d l => exact ⟨d, l, rfl⟩
  simp only
  by_cases hany : (vars ++ ext).any (fun v => decide (v.n = d :: ni')) = true
  · have hany' : (vars ++ ext).any (fun v => v.n == d :: ni') = true := by
      rw [← hany]; congr 1; funext v; rw [Bool.eq_iff_iff]; simp
    rw [if_pos hany']
    refine ⟨_, rfl, hfl, ⟨ext, rfl, hth, fun v => ?_⟩, by simp⟩
    rw [hmem]
    refine ⟨.inl, ?_⟩
    rintro (h | ⟨h, hs⟩)
    · exact h
    · rw [← hmem]
      have := sumVar_unique hd hs hsv
      subst this
      rw [List.any_eq_true] at hany
      obtain ⟨u, hu, hun⟩ := hany
      have hun : u.n = d :: ni' := by simpa using hun
      rcases List.mem_append.mp hu with hu | hu
      · exfalso
        obtain ⟨e, he⟩ := hb u hu
        rw [he] at hun
        rw [← hlen, ← hun] at h
        simp at h
      · have := hth u hu
        obtain ⟨us, un⟩ := u
        simp only [IsTh] at this hun
        subst hun; subst this
        exact hu
  · have hany' : ¬ (vars ++ ext).any (fun v => v.n == d :: ni') = true := by
      intro h; apply hany; rw [← h]; congr 1; funext v; rw [Bool.eq_iff_iff]; simp
    rw [if_neg hany']
    have h2l : 2 ≤ (varlist m).length := by
      by_contra hlt
      have h1l : (varlist m).length = 1 := by
        have : (varlist m).length ≠ 0 := fun h => hm.1 (List.length_eq_zero_iff.1 h)
        omega
      apply hany
      rw [List.any_eq_true]
      have hds : ds.length = 1 := by rw [← h1.length_eq, h1l]
      obtain ⟨e, rfl⟩ := List.length_eq_one_iff.1 hds
      obtain ⟨x, hxv⟩ := List.length_eq_one_iff.1 h1l
      rw [hxv] at h1
      cases h1 with
      | cons hh _ =>
        obtain ⟨u, hu, _, hun⟩ := hh
        refine ⟨u, List.mem_append_left _ hu, ?_⟩
        have : d :: ni' = [e] := List.perm_singleton.1 h2
        rw [this, hun]; simp
    refine ⟨_, rfl, hfl, ⟨ext ++ [⟨thName (d :: ni'), d :: ni'⟩], by simp, ?_, fun v => ?_⟩, ?_⟩
    · intro v hv
      rcases List.mem_append.mp hv with hv | hv
      · exact hth v hv
      · simp only [List.mem_singleton] at hv; subst hv; rfl
    · rw [List.mem_append, hmem, List.mem_singleton]
      constructor
      · rintro (h | rfl)
        · exact .inl h
        · exact .inr ⟨h2l, hsv⟩
      · rintro (h | ⟨_, h⟩)
        · exact .inl h
        · exact .inr (sumVar_unique hd h hsv)
    · simp only [Option.mem_def, Option.some.injEq]
      rintro v rfl
      exact ⟨h2l, hsv⟩

theorem soaLoop_ext {sub : Expr → Expr → Expr → Expr} {vars : List Var} (hb : BaseVars vars) (hd : (vars.map (·.symbol)).Nodup) :
    ∀ (ms : List Match) {st : SoaSt} {New : Var → Prop}, Ext vars st.vars New → OfJoints vars ms → (∀ v ∈ st.newjoint, New v) →
      ((st.found2 || st.found3) = true ∨ (∀ m ∈ ms.head?, 2 ≤ (varlist m).length)) →
      ∃ st', soaLoop sub st ms = .ok st' ∧
        Ext vars st'.vars (fun v => New v ∨ ∃ m ∈ ms, 2 ≤ (varlist m).length ∧ SumVar vars m v) ∧
        (∀ v ∈ st'.newjoint, New v ∨ ∃ m ∈ ms, 2 ≤ (varlist m).length ∧ SumVar vars m v)
  | [], st, New, hE, _, hn, _ => ⟨st, rfl, by simpa using hE, fun v hv => .inl (hn v hv)⟩
  | m :: ms, st, New, hE, ho, hn, hf => by
    obtain ⟨st1, h1, h2, h3, h4⟩ := soaStep_ext (sub := sub) hb hd hE (ho m List.mem_cons_self)
      (hf.imp id fun h => h m (by simp))
    obtain ⟨st2, k1, k2, k3⟩ := soaLoop_ext hb hd ms h3 (fun m hm => ho m (List.mem_cons_of_mem _ hm)) (fun v hv => .inr (h4 v hv)) (.inl h2)
    refine ⟨st2, by rw [soaLoop, h1]; exact k1, ?_, fun v hv => by
      rcases k3 v hv with (h | h) | ⟨m', hm', h⟩
      · exact .inl h
      · exact .inr ⟨m, List.mem_cons_self, h⟩
      · exact .inr ⟨m', List.mem_cons_of_mem _ hm', h⟩⟩
    obtain ⟨ext, e1, e2, e3⟩ := k2.prefix_
    refine ⟨ext, e1, e2, fun v => ?_⟩
    rw [e3]
    simp only [List.mem_cons, exists_eq_or_imp, or_assoc]

theorem soaLoop_idle {sub : Expr → Expr → Expr → Expr} : ∀ (ms : List Match) (st : SoaSt), st.found2 = false → st.found3 = false →
    st.newjoint = none → (∀ m ∈ ms, ¬ 2 ≤ (varlist m).length) → ∃ st', soaLoop sub st ms = .ok st' ∧ st'.vars = st.vars ∧ st'.newjoint = none
  | [], st, _, _, h3, _ => ⟨st, rfl, rfl, h3⟩
  | m :: ms, st, h1, h2, h3, h => by
    have hm := h m List.mem_cons_self
    have e2 : ((varlist m).length == 2) = false := by simp; omega
    have e3 : ((varlist m).length == 3) = false := by simp; omega
    have hs : soaStep sub st m = .ok { st with newjoint := none, tmpeqn := none } := by
      unfold soaStep
      simp [h1, h2, e2, e3]
    obtain ⟨st', k1, k2, k3⟩ := soaLoop_idle (sub := sub) ms { st with newjoint := none, tmpeqn := none } h1 h2 rfl
      (fun m hm => h m (List.mem_cons_of_mem _ hm))
    exact ⟨st', by rw [soaLoop, hs]; exact k1, k2, k3⟩

theorem mem_sortMatches_iff {l : List Match} {m : Match} : m ∈ sortMatches l ↔ m ∈ l := by
  refine ⟨mem_sortMatches, fun h => ?_⟩
  have hl3 : (varlist m).length ≤ 3 := by
    rw [varlist]; exact (List.length_filter_le _ _).trans (by simp)
  simp only [sortMatches, List.mem_append, List.mem_filter, beq_iff_eq]
  have : (varlist m).length = 3 ∨ (varlist m).length = 2 ∨ (varlist m).length = 1 ∨ (varlist m).length = 0 := by omega
  rcases this with h' | h' | h' | h' <;> simp [h, h']

/-- The sorted matches start with one of two or three summands if there is one. -/
theorem sortMatches_head {l : List Match} (h : ∃ m ∈ l, 2 ≤ (varlist m).length) : ∀ m ∈ (sortMatches l).head?, 2 ≤ (varlist m).length := by
  intro m hm
  obtain ⟨m0, h0, hl⟩ := h
  simp only [sortMatches] at hm
  rw [List.append_assoc, List.head?_append] at hm
  have hl3 : (varlist m0).length ≤ 3 := by
    rw [varlist]; exact (List.length_filter_le _ _).trans (by simp)
  have hne : l.filter (fun m => (varlist m).length == 3) ++ l.filter (fun m => (varlist m).length == 2) ≠ [] := by
    intro h
    have : (varlist m0).length = 3 ∨ (varlist m0).length = 2 := by omega
    rw [List.append_eq_nil_iff, List.filter_eq_nil_iff, List.filter_eq_nil_iff] at h
    rcases this with h' | h'
    · exact h.1 m0 h0 (by simp [h'])
    · exact h.2 m0 h0 (by simp [h'])
  rw [List.head?_eq_some_head hne, Option.some_or] at hm
  have hmem := List.head_mem hne
  have : (l.filter (fun m => (varlist m).length == 3) ++ l.filter (fun m => (varlist m).length == 2)).head hne = m := by simpa using hm
  rw [this] at hmem
  simp only [List.mem_append, List.mem_filter, beq_iff_eq] at hmem
  rcases hmem with ⟨_, h⟩ | ⟨_, h⟩ <;> omega

theorem soaSub_ext {sub : Expr → Expr → Expr → Expr} {find : Expr → List Match} {vars : List Var} (hb : BaseVars vars)
    (hd : (vars.map (·.symbol)).Nodup) {e : Expr} (ho : OfJoints vars (find e)) {cur : List Var} {New : Var → Prop} (hE : Ext vars cur New)
    (aux : List (String × Expr)) : ∃ st, soaSub sub find e cur aux = .ok st ∧
      Ext vars st.vars (fun v => New v ∨ ∃ m ∈ find e, 2 ≤ (varlist m).length ∧ SumVar vars m v) ∧
      (∀ v ∈ st.newjoint, New v ∨ ∃ m ∈ find e, 2 ≤ (varlist m).length ∧ SumVar vars m v) := by
  by_cases h : ∃ m ∈ find e, 2 ≤ (varlist m).length
  · obtain ⟨st, h1, h2, h3⟩ := soaLoop_ext (sub := sub) hb hd (sortMatches (find e)) (st := { expr := e, vars := cur, aux := aux }) hE
      (fun m hm => ho m (mem_sortMatches hm)) (by simp) (.inr (sortMatches_head h))
    refine ⟨st, h1, ?_, by simpa only [mem_sortMatches_iff] using h3⟩
    obtain ⟨ext, e1, e2, e3⟩ := h2.prefix_
    refine ⟨ext, e1, e2, fun v => ?_⟩
    rw [e3]
    simp only [mem_sortMatches_iff]
  · obtain ⟨st, h1, h2, h3⟩ := soaLoop_idle (sub := sub) (sortMatches (find e)) { expr := e, vars := cur, aux := aux } rfl rfl rfl
      (fun m hm hl => h ⟨m, mem_sortMatches hm, hl⟩)
    refine ⟨st, h1, ?_, by rw [h3]; simp⟩
    rw [h2]
    obtain ⟨ext, e1, e2, e3⟩ := hE.prefix_
    refine ⟨ext, e1, e2, fun v => ?_⟩
    rw [e3]
    refine ⟨.inl, ?_⟩
    rintro (h' | ⟨m, hm, hl, _⟩)
    · exact h'
    · exact absurd ⟨m, hm, hl⟩ h

theorem Ext.dup {vars cur : List Var} {New : Var → Prop} (h : Ext vars cur New) {o : Option Var} (ho2 : ∀ v ∈ o, New v) : Ext vars (cur ++ o.toList) New := by
  obtain ⟨ext, e1, e2, e3⟩ := h.prefix_
  refine ⟨ext ++ o.toList, by rw [e1, List.append_assoc], ?_, fun v => ?_⟩
  · intro v hv
    rcases List.mem_append.mp hv with hv | hv
    · exact e2 v hv
    · exact e2 v ((e3 v).2 (ho2 v (by simpa using hv)))
  · rw [List.mem_append, e3]
    exact ⟨fun h => h.elim id fun h => ho2 v (by simpa using h), .inl⟩

theorem soaElement_ext {sub : Expr → Expr → Expr → Expr} {simp : Expr → Expr} {find : Expr → List Match} {vars : List Var} (hb : BaseVars vars)
    (hd : (vars.map (·.symbol)).Nodup) {td ts : Expr} (ho : OfJoints vars (find (simp td) ++ find (simp ts))) {cur : List Var}
    {New : Var → Prop} (hE : Ext vars cur New) (aux : List (String × Expr)) :
    ∃ r, soaElement sub simp find td ts cur aux = .ok r ∧
      Ext vars r.2.2.1 (fun v => New v ∨ ∃ m ∈ find (simp td) ++ find (simp ts), 2 ≤ (varlist m).length ∧ SumVar vars m v) := by
  obtain ⟨l, h1, h2, h3⟩ := soaSub_ext (sub := sub) hb hd (fun m hm => ho m (List.mem_append_left _ hm)) hE aux
  obtain ⟨r, k1, k2, _⟩ := soaSub_ext (sub := sub) (find := find) (e := simp ts) hb hd (fun m hm => ho m (List.mem_append_right _ hm)) (h2.dup h3)
    (l.aux ++ l.tmpeqn.toList)
  refine ⟨(l.expr, r.expr, r.vars, r.aux), by rw [soaElement, h1]; simp only; rw [k1], ?_⟩
  obtain ⟨ext, e1, e2, e3⟩ := k2.prefix_
  refine ⟨ext, e1, e2, fun v => ?_⟩
  rw [e3]
  simp only [List.mem_append, or_and_right, exists_or, or_assoc]

theorem soaTransform_ext {sub : Expr → Expr → Expr → Expr} {simp : Expr → Expr} {find : Expr → List Match} {vars : List Var} (hb : BaseVars vars)
    (hd : (vars.map (·.symbol)).Nodup) : ∀ (l : List (Expr × Expr)) (_ : ∀ p ∈ l, OfJoints vars (find (simp p.1) ++ find (simp p.2)))
    {cur : List Var} {New : Var → Prop} (_ : Ext vars cur New) (aux : List (String × Expr)),
    ∃ r, soaTransform sub simp find l cur aux = .ok r ∧
      Ext vars r.2.1 (fun v => New v ∨ ∃ p ∈ l, ∃ m ∈ find (simp p.1) ++ find (simp p.2), 2 ≤ (varlist m).length ∧ SumVar vars m v)
  | [], _, cur, New, hE, aux => ⟨([], cur, aux), rfl, by simpa using hE⟩
  | (td, ts) :: l, ho, cur, New, hE, aux => by
    obtain ⟨⟨td', ts', cur', aux'⟩, h1, h2⟩ := soaElement_ext (sub := sub) hb hd (ho _ List.mem_cons_self) hE aux
    obtain ⟨⟨l', cur'', aux''⟩, k1, k2⟩ := soaTransform_ext hb hd l (fun p hp => ho p (List.mem_cons_of_mem _ hp)) h2 aux'
    refine ⟨((td', ts') :: l', cur'', aux''), by rw [soaTransform, h1]; simp only; rw [k1], ?_⟩
    obtain ⟨ext, e1, e2, e3⟩ := k2.prefix_
    refine ⟨ext, e1, e2, fun v => ?_⟩
    rw [e3]
    simp only [List.mem_cons, exists_eq_or_imp, or_assoc]

/-- **C63, sums of angles** (partial: the order of the new unknowns is not fixed, see below). For every robot with joints 1..9, all matrix
equations whose sums of angles are sums of joint variables, and every order in which python iterates over the sets of matches: the transform
completes, keeps the joint variables and adds exactly the variables of the sums of two or three angles that occur in the equations. The
right-hand side does not depend on the order. -/
theorem C63_soa_unknowns_partial (sub : Expr → Expr → Expr → Expr) (simp : Expr → Expr) (find : Expr → List Match) {vars : List Var}
    (hb : BaseVars vars) (hd : (vars.map (·.symbol)).Nodup) (l : List (Expr × Expr))
    (ho : ∀ p ∈ l, OfJoints vars (find (simp p.1) ++ find (simp p.2))) :
    ∃ l' ext aux, soaTransform sub simp find l vars [] = .ok (l', vars ++ ext, aux) ∧
      ∀ v, v ∈ ext ↔ ∃ p ∈ l, ∃ m ∈ find (simp p.1) ++ find (simp p.2), 2 ≤ (varlist m).length ∧ SumVar vars m v := by
  obtain ⟨⟨l', cur, aux⟩, h1, h2⟩ := soaTransform_ext (sub := sub) hb hd l ho (cur := vars) (New := fun _ => False)
    ⟨[], by simp, by simp, by simp⟩ []
  obtain ⟨ext, e1, _, e3⟩ := h2.prefix_
  simp only at e1
  subst e1
  exact ⟨l', ext, aux, h1, fun v => by rw [e3]; simp⟩

/-- The set of unknowns after the transform is the same for any two orders of iteration. -/
theorem C63_soa_same_unknowns_partial (sub : Expr → Expr → Expr → Expr) (simp : Expr → Expr) (find find' : Expr → List Match)
    (hf : ∀ e, (find e).Perm (find' e)) {vars : List Var} (hb : BaseVars vars) (hd : (vars.map (·.symbol)).Nodup) (l : List (Expr × Expr))
    (ho : ∀ p ∈ l, OfJoints vars (find (simp p.1) ++ find (simp p.2))) :
    ∃ r r', soaTransform sub simp find l vars [] = .ok r ∧ soaTransform sub simp find' l vars [] = .ok r' ∧ ∀ v, v ∈ r.2.1 ↔ v ∈ r'.2.1 := by
  have hmem : ∀ (p : Expr × Expr) m, m ∈ find (simp p.1) ++ find (simp p.2) ↔ m ∈ find' (simp p.1) ++ find' (simp p.2) := fun p m => by
    rw [List.mem_append, List.mem_append, (hf _).mem_iff, (hf _).mem_iff]
  obtain ⟨a1, a2, a3, a4, a5⟩ := C63_soa_unknowns_partial sub simp find hb hd l ho
  obtain ⟨b1, b2, b3, b4, b5⟩ := C63_soa_unknowns_partial sub simp find' hb hd l (fun p hp m hm => ho p hp m ((hmem p m).2 hm))
  refine ⟨_, _, a4, b4, fun v => ?_⟩
  simp only [List.mem_append, a5, b5, ← hmem]

/-- The matches of `exFind`, iterated in reverse order. -/
def exFind' (e : Expr) : List Match := (exFind e).reverse

/-- r_11 = sin(th_2+th_3)·cos(th_4+th_5) -/
def exTwoSums : Expr := .bin .mul (.un .sin (.bin .add (th "2") (th "3"))) (.un .cos (.bin .add (th "4") (th "5")))

/-- A concrete case of the two theorems. -/
example : ∀ p ∈ [(Expr.sym "r_11", exTwoSums)], OfJoints exVars (exFind (id p.1) ++ exFind (id p.2)) := by
  have h : ∀ m ∈ exFind (.sym "r_11") ++ exFind exTwoSums, varlist m ≠ [] ∧ ∀ x ∈ varlist m, ∃ v ∈ exVars, x = .sym v.symbol := by
    decide +kernel
  intro p hp
  simp only [List.mem_singleton] at hp
  subst hp
  exact h
example : (exVars.map (·.symbol)).Nodup := by decide +kernel

/-- **C63 violated.** The order of the unknowns depends on the order in which a set is iterated (the hash seed): `th_23, th_45` or
`th_45, th_23`. -/
theorem C63_order_violation :
    (soaTransform Expr.replace id exFind [(.sym "r_11", exTwoSums)] exVars []).toOption.map (·.2.1) =
      some (exVars ++ [⟨"th_23", [2, 3]⟩, ⟨"th_45", [4, 5]⟩]) ∧
    (soaTransform Expr.replace id exFind' [(.sym "r_11", exTwoSums)] exVars []).toOption.map (·.2.1) =
      some (exVars ++ [⟨"th_45", [4, 5]⟩, ⟨"th_23", [2, 3]⟩]) := by
  decide +kernel

/-- **C63 violated.** On the left side even the number of times an unknown is registered depends on it: the one that is processed last is
registered twice. -/
theorem C63_double_violation :
    (soaTransform Expr.replace id exFind [(exTwoSums, .sym "r_11")] exVars []).toOption.map (·.2.1) =
      some (exVars ++ [⟨"th_23", [2, 3]⟩, ⟨"th_45", [4, 5]⟩, ⟨"th_45", [4, 5]⟩]) ∧
    (soaTransform Expr.replace id exFind' [(exTwoSums, .sym "r_11")] exVars []).toOption.map (·.2.1) =
      some (exVars ++ [⟨"th_45", [4, 5]⟩, ⟨"th_23", [2, 3]⟩, ⟨"th_23", [2, 3]⟩]) := by
  decide +kernel

end Verif.Kin
