/-!
# C23: equality and hash of `kequation` (ikbtbasics/kin_cl.py:49-73)
-/
namespace Verif.Eqn.Equality

/-- What `kequation` needs of sympy expressions: difference, the test `== 0`, and printing. -/
structure Alg (E : Type) where
  sub : E → E → E
  isZero : E → Bool
  str : E → String

structure KEqn (E : Type) where
  lhs : E
  rhs : E

variable {E : Type} (A : Alg E)

/-- kin_cl.py:61-67 `__eq__`; the argument may be None. -/
def eq (a : KEqn E) : Option (KEqn E) → Bool
  | none => false
  | some b => A.isZero (A.sub a.lhs b.lhs) && A.isZero (A.sub a.rhs b.rhs)

/-- kin_cl.py:68-72 `__ne__` -/
def ne (a : KEqn E) (b : Option (KEqn E)) : Bool := !eq A a b

/-- kin_cl.py:73-74: the string that is hashed -/
def hashKey (a : KEqn E) : String := A.str a.lhs ++ A.str a.rhs

/-- python's `a in l`: identity or `x == a` for some element (`same` stands for identity of objects). -/
def mem (same : KEqn E → KEqn E → Bool) (a : KEqn E) (l : List (KEqn E)) : Bool := l.any fun x => same x a || eq A x (some a)

/-- python's set/dict lookup: an element with the same hash that is identical or equal. -/
def setMem (hash : String → Nat) (same : KEqn E → KEqn E → Bool) (a : KEqn E) (s : List (KEqn E)) : Bool :=
  s.any fun x => hash (hashKey A x) == hash (hashKey A a) && (same x a || eq A x (some a))

/-- Specification: two expressions count as equal when their difference is zero. -/
def Same (a b : E) : Prop := A.isZero (A.sub a b) = true

/-- "difference is zero" is an equivalence relation: true of sympy's exact arithmetic, an assumption here -/
structure Lawful : Prop where
  refl : ∀ a, Same A a a
  symm : ∀ a b, Same A a b → Same A b a
  trans : ∀ a b c, Same A a b → Same A b c → Same A a c

/-- C23: `==` holds iff both sides are the same; never with None; `!=` is its negation. -/
theorem C23_eq_iff (a b : KEqn E) : (eq A a (some b) = true ↔ Same A a.lhs b.lhs ∧ Same A a.rhs b.rhs) ∧
    eq A a none = false ∧ ∀ o, ne A a o = !(eq A a o) :=
  ⟨by simp [eq, Same], rfl, fun _ => rfl⟩

/-- C23: `==` is an equivalence relation. -/
theorem C23_equivalence (h : Lawful A) :
    (∀ a, eq A a (some a) = true) ∧ (∀ a b, eq A a (some b) = true → eq A b (some a) = true) ∧
    (∀ a b c, eq A a (some b) = true → eq A b (some c) = true → eq A a (some c) = true) := by
  refine ⟨fun a => ?_, fun a b => ?_, fun a b c => ?_⟩
  · exact (C23_eq_iff A a a).1.2 ⟨h.refl _, h.refl _⟩
  · rw [(C23_eq_iff A a b).1, (C23_eq_iff A b a).1]; exact fun ⟨x, y⟩ => ⟨h.symm _ _ x, h.symm _ _ y⟩
  · rw [(C23_eq_iff A a b).1, (C23_eq_iff A b c).1, (C23_eq_iff A a c).1]
    exact fun ⟨x, y⟩ ⟨x', y'⟩ => ⟨h.trans _ _ _ x x', h.trans _ _ _ y y'⟩

/-- C23: a membership test in a list succeeds iff an equal element is there (and so gives the same answer for equal
equations). -/
theorem C23_list_membership (h : Lawful A) {same : KEqn E → KEqn E → Bool} (hid : ∀ a b, same a b = true → a = b)
    (a : KEqn E) (l : List (KEqn E)) :
    (mem A same a l = true ↔ ∃ x ∈ l, Same A x.lhs a.lhs ∧ Same A x.rhs a.rhs) ∧
    ∀ b, eq A a (some b) = true → mem A same a l = mem A same b l := by
  have key : ∀ a, mem A same a l = true ↔ ∃ x ∈ l, Same A x.lhs a.lhs ∧ Same A x.rhs a.rhs := by
    intro a
    simp only [mem, List.any_eq_true, Bool.or_eq_true, (C23_eq_iff A _ a).1]
    constructor
    · rintro ⟨x, hx, h' | h'⟩
      · rw [hid _ _ h'] at hx; exact ⟨a, hx, h.refl _, h.refl _⟩
      · exact ⟨x, hx, h'⟩
    · rintro ⟨x, hx, h'⟩; exact ⟨x, hx, .inr h'⟩
  refine ⟨key a, fun b hb => ?_⟩
  rw [(C23_eq_iff A a b).1] at hb
  rw [Bool.eq_iff_iff, key, key]
  constructor
  · rintro ⟨x, hx, h1, h2⟩; exact ⟨x, hx, h.trans _ _ _ h1 hb.1, h.trans _ _ _ h2 hb.2⟩
  · rintro ⟨x, hx, h1, h2⟩; exact ⟨x, hx, h.trans _ _ _ h1 (h.symm _ _ hb.1), h.trans _ _ _ h2 (h.symm _ _ hb.2)⟩

/-- C23, hashes: equal equations have equal hashes, provided that expressions with zero difference are printed alike (sympy's
canonical forms), and then a set lookup agrees with the list lookup.
Missing: expressions with zero difference that are printed differently, such as 1 and 1.0 (below). -/
theorem C23_hash_partial (hp : ∀ a b, Same A a b → A.str a = A.str b) (hash : String → Nat) :
    (∀ a b, eq A a (some b) = true → hash (hashKey A a) = hash (hashKey A b)) ∧
    ∀ (same : KEqn E → KEqn E → Bool) (_ : ∀ a b, same a b = true → a = b) (a : KEqn E) (s : List (KEqn E)),
      setMem A hash same a s = mem A same a s := by
  have h1 : ∀ a b, eq A a (some b) = true → hash (hashKey A a) = hash (hashKey A b) := by
    intro a b h
    obtain ⟨x, y⟩ := (C23_eq_iff A a b).1.1 h
    simp only [hashKey, hp _ _ x, hp _ _ y]
  refine ⟨h1, fun same hid a s => ?_⟩
  unfold setMem mem
  congr 1
  funext x
  by_cases h : (same x a || eq A x (some a)) = true
  · rw [h]
    have : hash (hashKey A x) = hash (hashKey A a) := by
      rcases (Bool.or_eq_true _ _).mp h with h | h
      · rw [hid _ _ h]
      · exact h1 _ _ h
    simp [this]
  · simp only [Bool.not_eq_true] at h
    rw [h]; simp

/-- Numbers as sympy has them: exact integers, and floats (here with integral value), which are printed differently. -/
inductive Num where | int (n : Int) | flt (n : Int)

/-- The difference is a float if one argument is; a float zero equals 0. -/
def numAlg : Alg Num where
  sub
    | .int a, .int b => .int (a - b)
    | .int a, .flt b => .flt (a - b)
    | .flt a, .int b => .flt (a - b)
    | .flt a, .flt b => .flt (a - b)
  isZero | .int a => a == 0 | .flt a => a == 0
  str | .int a => toString a | .flt a => toString a ++ ".0"

def numVal : Num → Int | .int a => a | .flt a => a

theorem numSame (a b : Num) : Same numAlg a b ↔ numVal a = numVal b := by
  cases a <;> cases b <;> simp [Same, numAlg, numVal] <;> omega

/-- The assumption of the theorems above is met. -/
theorem numLawful : Lawful numAlg where
  refl a := (numSame a a).2 rfl
  symm a b h := (numSame b a).2 ((numSame a b).1 h).symm
  trans a b c h h' := (numSame a c).2 (((numSame a b).1 h).trans ((numSame b c).1 h'))

/-- C23 is false of the code: `0 = 1` and `0 = 1.0` are equal but their hash strings differ; so a set containing one does
not contain the other, under any hash function that separates the two strings, although a list does. -/
theorem C23_hash_violation :
    let a : KEqn Num := ⟨.int 0, .int 1⟩
    let b : KEqn Num := ⟨.int 0, .flt 1⟩
    eq numAlg a (some b) = true ∧ hashKey numAlg a = "01" ∧ hashKey numAlg b = "01.0" ∧
    ∀ (hash : String → Nat), hash "01" ≠ hash "01.0" →
      setMem numAlg hash (fun _ _ => false) b [a] = false ∧ mem numAlg (fun _ _ => false) b [a] = true := by
  refine ⟨by decide +kernel, by decide +kernel, by decide +kernel, fun hash h => ?_⟩
  have e1 : hashKey numAlg ⟨.int 0, .int 1⟩ = "01" := by decide +kernel
  have e2 : hashKey numAlg ⟨.int 0, .flt 1⟩ = "01.0" := by decide +kernel
  constructor
  · simp [setMem, e1, e2, h]
  · decide +kernel

/-- Non-vacuity of `C23_hash_partial`: exact integers. -/
def intAlg : Alg Int := ⟨fun a b => a - b, fun a => a == 0, fun a => toString a⟩
example : ∀ a b, Same intAlg a b → intAlg.str a = intAlg.str b := by
  intro a b h
  have : a = b := by simp [Same, intAlg] at h; omega
  rw [this]

end Verif.Eqn.Equality
