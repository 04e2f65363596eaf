import Verif.Main.Imports
import Mathlib.Data.List.Perm.Basic

/-!
# C82: the functions of the library find the names they use, whatever is imported in whatever order

The quantifier: all programs, that is all sequences of imports of the modules (or of the other modules and programs of the
library), in a fresh interpreter.
-/

namespace Verif.Imports

/-! ## Specification -/

/-- The value of a global name of a module. -/
def Sys.global (s : Sys) (m : Mod) (n : N) : Option Val := ((s.get m).getD []).find n

/-- A call of the function finds all its global names, and in the library modules it uses the attributes it asks for. -/
def Sys.finds (s : Sys) (f : Fn) : Prop :=
  (∀ n ∈ f.names, (s.global f.m n).isSome) ∧
  ∀ a ∈ f.attrs, ∃ m, s.global f.m a.1 = some (.module m) ∧ (s.global m a.2).isSome

/-- The four modules that import each other in a circle. -/
def circle (m : Mod) : Bool := m = .kin_cl ∨ m = .solutionGraphV3 ∨ m = .matching ∨ m = .ik_classes

/-- The first module of the circle that a program imports. -/
def entry (h : List Mod) : Option Mod := h.find? circle

/-! ## Where an import history ends -/

/-- (proof) the state of an interpreter that has imported only the module -/
def after (m : Mod) : Sys := (importMod m fresh).toOption.getD fresh

/-- (proof) a module outside of the circle, loaded or not -/
def part (m : Mod) (b : Bool) : Option Dict := if b then (after m).get m else none

/-- (proof) only modules outside of the circle are loaded -/
def outside (a b c : Bool) : Sys := [part .pykinsym a, none, none, none, none, part .helperfunctions b, part .graph2latex c]

theorem fresh_outside : fresh = outside false false false := rfl

instance : DecidableEq Dict := inferInstanceAs (DecidableEq (List (N × Val)))
instance : DecidableEq Sys := inferInstanceAs (DecidableEq (List (Option (List (N × Val)))))

theorem step_outside : ∀ a b c : Bool,
    (importMod .pykinsym (outside a b c)).toOption = some (outside true b c) ∧
    (importMod .helperfunctions (outside a b c)).toOption = some (outside a true c) ∧
    (importMod .graph2latex (outside a b c)).toOption = some (outside a b true) := by decide +kernel

theorem step_entry : ∀ a b c : Bool,
    (importMod .kin_cl (outside a b c)).toOption = some (after .kin_cl) ∧
    (importMod .solutionGraphV3 (outside a b c)).toOption = some (after .solutionGraphV3) ∧
    (importMod .matching (outside a b c)).toOption = some (after .matching) ∧
    (importMod .ik_classes (outside a b c)).toOption = some (after .ik_classes) := by decide +kernel

theorem loaded_after : ((after .kin_cl).all Option.isSome && (after .solutionGraphV3).all Option.isSome &&
    (after .matching).all Option.isSome && (after .ik_classes).all Option.isSome &&
    (after .kin_cl).length == 7 && (after .solutionGraphV3).length == 7 &&
    (after .matching).length == 7 && (after .ik_classes).length == 7) = true := by decide +kernel

theorem get_after {e : Mod} (he : circle e = true) (m : Mod) : ((after e).get m).isSome = true := by
  have key : (after e).all Option.isSome = true ∧ (after e).length = 7 := by
    have h := loaded_after
    simp only [Bool.and_eq_true, beq_iff_eq] at h
    cases e <;> simp [circle] at he <;> tauto
  have hlt : m.idx < (after e).length := by rw [key.2]; cases m <;> decide
  have h1 := List.all_eq_true.1 key.1 _ (List.getElem_mem hlt)
  simp only [Sys.get, List.getElem?_eq_getElem hlt]
  cases hx : (after e)[m.idx] with
  | none => rw [hx] at h1; cases h1
  | some d => rfl

theorem import_loaded {m : Mod} {s : Sys} (h : (s.get m).isSome = true) : importMod m s = .ok s := by
  simp [importMod, load, h]

theorem ok_of {r : Except Err Sys} {s : Sys} (h : r.toOption = some s) : r = .ok s := by
  cases r with
  | error e => cases h
  | ok t => simp only [Except.toOption, Option.some.injEq] at h; rw [h]

theorem importAll_after {e : Mod} (he : circle e = true) : ∀ h : List Mod, importAll h (after e) = .ok (after e)
  | [] => rfl
  | m :: ms => by simp only [importAll, import_loaded (get_after he m)]; exact importAll_after he ms

/-- (proof) every history ends in one of twelve states -/
theorem importAll_outside : ∀ (h : List Mod) (a b c : Bool), importAll h (outside a b c) = .ok
    (match entry h with
     | some e => after e
     | none => outside (a || h.contains .pykinsym) (b || h.contains .helperfunctions) (c || h.contains .graph2latex))
  | [], a, b, c => by simp [importAll, entry]
  | m :: ms, a, b, c => by
    have hO := step_outside a b c
    have hE := step_entry a b c
    cases m with
    | pykinsym =>
      simp only [importAll, ok_of hO.1]
      rw [importAll_outside ms true b c]
      simp [entry, circle, List.contains_cons]
    | helperfunctions =>
      simp only [importAll, ok_of hO.2.1]
      rw [importAll_outside ms a true c]
      simp [entry, circle, List.contains_cons]
    | graph2latex =>
      simp only [importAll, ok_of hO.2.2]
      rw [importAll_outside ms a b true]
      simp [entry, circle, List.contains_cons]
    | kin_cl =>
      simp only [importAll, ok_of hE.1]
      rw [importAll_after rfl ms]; simp [entry, List.find?_cons, circle]
    | solutionGraphV3 =>
      simp only [importAll, ok_of hE.2.1]
      rw [importAll_after rfl ms]; simp [entry, List.find?_cons, circle]
    | matching =>
      simp only [importAll, ok_of hE.2.2.1]
      rw [importAll_after rfl ms]; simp [entry, List.find?_cons, circle]
    | ik_classes =>
      simp only [importAll, ok_of hE.2.2.2]
      rw [importAll_after rfl ms]; simp [entry, List.find?_cons, circle]

/-- (proof) the final state of a history -/
def endOf (h : List Mod) : Sys :=
  match entry h with
  | some e => after e
  | none => outside (h.contains .pykinsym) (h.contains .helperfunctions) (h.contains .graph2latex)

theorem importAll_fresh (h : List Mod) : importAll h fresh = .ok (endOf h) := by
  rw [fresh_outside, importAll_outside]; simp [endOf]

theorem entry_circle {h : List Mod} {e : Mod} (he : entry h = some e) : circle e = true :=
  List.find?_some (p := circle) he

/-! ## The names in the final states -/

/-- (proof) the test of `finds` -/
def findsB (s : Sys) (f : Fn) : Bool :=
  f.names.all (fun n => (s.global f.m n).isSome) &&
  f.attrs.all (fun a => match s.global f.m a.1 with
    | some (.module m) => (s.global m a.2).isSome
    | _ => false)

theorem findsB_iff (s : Sys) (f : Fn) : findsB s f = true ↔ s.finds f := by
  simp only [findsB, Sys.finds, Bool.and_eq_true, List.all_eq_true]
  refine and_congr Iff.rfl (forall_congr' fun a => forall_congr' fun _ => ?_)
  cases hx : s.global f.m a.1 with
  | none => simp
  | some v => cases v <;> simp

/-- The functions that fail when the circle is not entered through kin_cl. -/
def broken (f : Fn) : Prop :=
  f.m = .kin_cl ∧ (f.name = "kequation.LaTexOutput" ∨ f.name = "unknown.set_solved" ∨ f.name = "unknown.scan")

instance (f : Fn) : Decidable (broken f) := by unfold broken; infer_instance

theorem names_good : functions.all (findsB (after .kin_cl)) = true := by decide +kernel

theorem names_bad : functions.all (fun f => (findsB (after .solutionGraphV3) f == !decide (broken f)) &&
    (findsB (after .matching) f == !decide (broken f)) && (findsB (after .ik_classes) f == !decide (broken f))) = true := by
  decide +kernel

theorem names_outside : ∀ a b c : Bool, functions.all (fun f => circle f.m || findsB (outside a b c) f ||
    !((outside a b c).get f.m).isSome) = true := by decide +kernel

theorem outside_unloaded : ∀ a b c : Bool, ((outside a b c).get .kin_cl).isSome = false ∧
    ((outside a b c).get .solutionGraphV3).isSome = false ∧ ((outside a b c).get .matching).isSome = false ∧
    ((outside a b c).get .ik_classes).isSome = false := by decide +kernel

/-! ## C82 -/

/-- C82: no sequence of imports fails, and afterwards every module that was asked for is there. -/
theorem C82_imports_succeed (h : List Mod) : ∃ s, importAll h fresh = .ok s ∧ ∀ m ∈ h, (s.get m).isSome := by
  refine ⟨endOf h, importAll_fresh h, fun m hm => ?_⟩
  unfold endOf
  cases he : entry h with
  | some e => exact get_after (entry_circle he) m
  | none =>
    have hc : circle m = false := by
      have := List.find?_eq_none.1 he m hm
      simpa using this
    have hmem : h.contains m = true := List.elem_eq_true_of_mem hm
    have key : ∀ a b c : Bool, ((outside true b c).get .pykinsym).isSome = true ∧
        ((outside a true c).get .helperfunctions).isSome = true ∧
        ((outside a b true).get .graph2latex).isSome = true := by decide +kernel
    cases m with
    | pykinsym => simp only [hmem]; exact (key true _ _).1
    | helperfunctions => simp only [hmem]; exact (key _ true _).2.1
    | graph2latex => simp only [hmem]; exact (key _ _ true).2.2
    | kin_cl => cases hc
    | solutionGraphV3 => cases hc
    | matching => cases hc
    | ik_classes => cases hc

/-- C82 as far as it holds: after every sequence of imports whose first module of the circle is kin_cl (or that imports
none of the circle), every function of every loaded module finds its names.
Missing for the full C82: the other ways into the circle (C82_wrong_entry_violation). -/
theorem C82_names_found_partial (h : List Mod) (he : entry h = some .kin_cl ∨ entry h = none) {s : Sys}
    (hs : importAll h fresh = .ok s) : ∀ f ∈ functions, (s.get f.m).isSome → s.finds f := by
  intro f hf hl
  rw [importAll_fresh] at hs
  simp only [Except.ok.injEq] at hs
  subst hs
  rcases he with he | he
  · simp only [endOf, he] at hl ⊢
    exact (findsB_iff _ _).1 (List.all_eq_true.1 names_good f hf)
  · simp only [endOf, he] at hl ⊢
    have h1 := List.all_eq_true.1 (names_outside (h.contains .pykinsym) (h.contains .helperfunctions)
      (h.contains .graph2latex)) f hf
    simp only [Bool.or_eq_true, hl, Bool.not_true, Bool.false_eq_true, or_false] at h1
    rcases h1 with h1 | h1
    · exfalso
      obtain ⟨k1, k2, k3, k4⟩ := outside_unloaded (h.contains .pykinsym) (h.contains .helperfunctions)
        (h.contains .graph2latex)
      cases hm : f.m <;> rw [hm] at h1 hl <;> first | (cases h1; done) | simp_all
    · exact (findsB_iff _ _).1 h1

/-- C82 is false of the code: a program whose first module of the circle is solutionGraphV3, matching or ik_classes has
an `unknown.set_solved`, an `unknown.scan` and a `kequation.LaTexOutput` that raise a NameError; exactly these. -/
theorem C82_wrong_entry_violation (h : List Mod) {e : Mod} (he : entry h = some e) (hne : e ≠ .kin_cl) {s : Sys}
    (hs : importAll h fresh = .ok s) : ∀ f ∈ functions, s.finds f ↔ ¬ broken f := by
  intro f hf
  rw [importAll_fresh] at hs
  simp only [Except.ok.injEq] at hs
  subst hs
  have hc := entry_circle he
  have h1 := List.all_eq_true.1 names_bad f hf
  simp only [Bool.and_eq_true, beq_iff_eq] at h1
  simp only [endOf, he]
  rw [← findsB_iff]
  cases e <;> simp [circle] at hc hne
  · rw [h1.1.1]; simp
  · rw [h1.1.2]; simp
  · rw [h1.2]; simp

/-- The names that `set_solved` misses: solving an unknown cannot be recorded in such a program. -/
theorem C82_set_solved_violation (h : List Mod) {e : Mod} (he : entry h = some e) (hne : e ≠ .kin_cl) {s : Sys}
    (hs : importAll h fresh = .ok s) : (s.get .kin_cl).isSome ∧ s.global .kin_cl .get_deps = none ∧
      s.global .kin_cl .Node = none ∧ s.global .kin_cl .Edge = none := by
  rw [importAll_fresh] at hs
  simp only [Except.ok.injEq] at hs
  subst hs
  have hc := entry_circle he
  simp only [endOf, he]
  refine ⟨get_after hc _, ?_⟩
  have key : ∀ x ∈ [after .solutionGraphV3, after .matching, after .ik_classes],
      x.global .kin_cl .get_deps = none ∧ x.global .kin_cl .Node = none ∧ x.global .kin_cl .Edge = none := by
    decide +kernel
  cases e <;> simp [circle] at hc hne
  · exact key _ (by simp)
  · exact key _ (by simp)
  · exact key _ (by simp)

/-- C82: through kin_cl the names also mean the same in every program: the modules have the same contents whatever else is
imported before, between or after. -/
theorem C82_same_meaning {h h' : List Mod} (he : entry h = some .kin_cl) (he' : entry h' = some .kin_cl) :
    importAll h fresh = importAll h' fresh := by
  rw [importAll_fresh, importAll_fresh]; simp [endOf, he, he']

/-- What the functions that record a solution then use: the `Node` and `Edge` of solutionGraphV3 and the helper `get_deps`,
and `kc` is the module kin_cl itself. -/
theorem C82_meaning {h : List Mod} (he : entry h = some .kin_cl) {s : Sys} (hs : importAll h fresh = .ok s) :
    s.global .kin_cl .Node = some (.obj .solutionGraphV3 28) ∧ s.global .kin_cl .Edge = some (.obj .solutionGraphV3 64) ∧
    s.global .kin_cl .get_deps = some (.obj .helperfunctions 53) ∧ s.global .kin_cl .erank = some (.obj .ik_classes 558) ∧
    s.global .kin_cl .kc = some (.module .kin_cl) ∧ s.global .ik_classes .mtch = some (.module .matching) := by
  rw [importAll_fresh] at hs
  simp only [Except.ok.injEq, endOf, he] at hs
  subst hs
  decide +kernel

/-! ### The modules and programs of the library as clients -/

/-- (proof) `from ikbtbasics import *` is never the first to import a module of the circle -/
theorem entry_reach (g : List Mod) : ∀ c : Client, entry (clientImports g c) = some .kin_cl := by
  intro c; cases c <;> rfl

/-- (proof) the nesting of clients is at most the number -/
def shallow : Nat → List Target → Bool
  | 0, ts => ts.all fun t => match t with
    | .client _ => false
    | _ => true
  | k + 1, ts => ts.all fun t => match t with
    | .client c => shallow k (imports c)
    | _ => true

theorem reach_shallow (g : List Mod) : ∀ k ts, shallow k ts = true → reach g (k + 1) ts = reach g k ts
  | 0, ts, h => by
    simp only [shallow, List.all_eq_true] at h
    simp only [reach]
    refine List.flatMap_congr fun t ht => ?_
    have := h t ht
    cases t <;> simp_all
  | k + 1, ts, h => by
    simp only [shallow, List.all_eq_true] at h
    rw [reach, reach]
    refine List.flatMap_congr fun t ht => ?_
    have := h t ht
    cases t with
    | client c => exact reach_shallow g k _ this
    | _ => rfl

theorem shallow_all : ∀ c : Client, shallow 5 (imports c) = true := by
  intro c; cases c <;> decide +kernel

/-- The bound on the nesting of clients in the model is never reached. -/
theorem reach_enough (g : List Mod) (c : Client) : reach g 6 (imports c) = clientImports g c :=
  reach_shallow g 5 _ (shallow_all c)

/-- C82 for the programs of the library: whichever of its modules and programs (ikSolver, fkOnly, the leaves, the outputs, the
robots, …) are imported, in any order and in any file system order of `from ikbtbasics import *`, every function finds
its names and they mean the same. -/
theorem C82_programs (glob : List Mod) (cs : List Client) (hcs : cs ≠ []) : ∃ s,
    importAll (cs.flatMap (clientImports glob)) fresh = .ok s ∧ (∀ f ∈ functions, s.finds f) ∧
    importAll [.kin_cl] fresh = .ok s := by
  obtain ⟨c, cs, rfl⟩ := List.exists_cons_of_ne_nil hcs
  have he : entry ((c :: cs).flatMap (clientImports glob)) = some .kin_cl := by
    simp only [List.flatMap_cons, entry, List.find?_append]
    rw [show (clientImports glob c).find? circle = some .kin_cl from entry_reach glob c]; rfl
  refine ⟨after .kin_cl, ?_, fun f hf => (findsB_iff _ _).1 (List.all_eq_true.1 names_good f hf), ?_⟩
  · rw [importAll_fresh]; simp only [endOf, he]
  · rw [importAll_fresh]; rfl

/-- C82 for `from ikbtbasics import *` as the first import of a program: the modules are imported in the order in which the
file system lists them; the functions find their names if and only if kin_cl is listed before the other three of the circle. -/
theorem C82_package_star (p : List Mod) (hp : p.Perm package) {s : Sys} (hs : importAll p fresh = .ok s) :
    (∀ f ∈ functions, f.m ∈ package → s.finds f) ↔
      ∀ m, circle m = true → m ≠ .kin_cl → p.idxOf .kin_cl < p.idxOf m := by
  have hmem : ∀ m, circle m = true → m ∈ p := fun m hm =>
    hp.mem_iff.2 (by cases m <;> simp [circle] at hm <;> simp [package])
  -- the first module of the circle
  obtain ⟨e, he⟩ : ∃ e, entry p = some e := by
    cases h : entry p with
    | some e => exact ⟨e, rfl⟩
    | none => exact absurd (List.find?_eq_none.1 h .kin_cl (hmem _ rfl)) (by simp [circle])
  obtain ⟨hce, a, b, hab, hno⟩ := List.find?_eq_some_iff_append.1 he
  have hidx : ∀ m, circle m = true → m ≠ e → p.idxOf e < p.idxOf m := by
    intro m hm hne
    have h1 : e ∉ a := fun h => by have := hno e h; simp [hce] at this
    have h2 : m ∉ a := fun h => by have := hno m h; simp [hm] at this
    rw [hab, List.idxOf_append_of_notMem h1, List.idxOf_append_of_notMem h2]
    simp [List.idxOf_cons, hne.symm]
  by_cases hk : e = .kin_cl
  · subst hk
    refine ⟨fun _ m hm hne => hidx m hm hne, fun _ f hf hm => ?_⟩
    rw [importAll_fresh] at hs
    simp only [Except.ok.injEq, endOf, he] at hs
    subst hs
    exact (findsB_iff _ _).1 (List.all_eq_true.1 names_good f hf)
  · refine ⟨fun h => ?_, fun h => ?_⟩
    · exfalso
      have hf : (⟨.kin_cl, "unknown.set_solved", 153, [.Edge, .Node, .get_deps], []⟩ : Fn) ∈ functions := by decide +kernel
      exact (C82_wrong_entry_violation p he hk hs _ hf).1 (h _ hf (by simp [package])) ⟨rfl, .inr (.inl rfl)⟩
    · have h1 := h e hce hk
      have h2 := hidx .kin_cl rfl (fun x => hk x.symm)
      omega

/-! ## Instances -/

example : entry [.pykinsym, .kin_cl, .ik_classes] = some .kin_cl := rfl
example : entry [.ik_classes, .kin_cl] = some .ik_classes := rfl
example : package.Perm package ∧ ¬ ∀ m, circle m = true → m ≠ .kin_cl → package.idxOf .kin_cl < package.idxOf m := by
  refine ⟨.refl _, fun h => ?_⟩
  have := h .ik_classes rfl (by decide)
  revert this; decide

/-- solChecker.py:1-3 imports ik_classes first. -/
example : ∃ s, importAll [.ik_classes, .kin_cl, .helperfunctions, .ik_classes, .kin_cl] fresh = .ok s ∧
    s.global .kin_cl .get_deps = none :=
  let ⟨s, hs, _⟩ := C82_imports_succeed _
  ⟨s, hs, (C82_set_solved_violation _ rfl (by decide) hs).2.1⟩

end Verif.Imports
