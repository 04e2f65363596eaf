import Verif.Out.CppProps
/-!
# C46: the text has one reading

The theorems of `CppProps` relate the text that `cpp_output.line` writes to an expression tree with that text. Here: a text is the text
of at most one well-formed tree, and a recursive descent parser (the usual one for left-associative `+ - * /`) finds it. So the value of a
text of C++ is well defined, and the C46 theorems can be stated for texts alone.
-/
namespace Verif.Out.Parse
open Verif.Out

/-- which function is meant -/
def funOf (w : Text) : Option Fun :=
  if w = Fun.text .sin then some .sin else if w = Fun.text .cos then some .cos else if w = Fun.text .asin then some .asin
  else if w = Fun.text .acos then some .acos else if w = Fun.text .sqrt then some .sqrt else none

/-- a number or a name -/
def plain (w r : Text) : Option (E × Text) :=
  match w with
  | [] => none
  | c :: _ => if c.isDigit then some (.nat (Nat.ofDigitChars 10 w 0), r) else some (.name w, r)

/-- read a character -/
def eat (c : Char) : Text → Option Text
  | [] => none
  | d :: r => if d = c then some r else none

mutual
/-- sum: an optional sign, a product, and more products with `" + "` or `" - "` before them. The number bounds the depth. -/
def pSum : Nat → Text → Option (E × Text)
  | 0, _ => none
  | n + 1, t =>
    match t with
    | '-' :: t => (pProd n t).bind fun p => sLoop n (.neg p.1) p.2
    | t => (pProd n t).bind fun p => sLoop n p.1 p.2
/-- further summands -/
def sLoop : Nat → E → Text → Option (E × Text)
  | 0, _, _ => none
  | n + 1, a, t =>
    match t with
    | ' ' :: '+' :: ' ' :: t => (pProd n t).bind fun p => sLoop n (.add a p.1) p.2
    | ' ' :: '-' :: ' ' :: t => (pProd n t).bind fun p => sLoop n (.sub a p.1) p.2
    | t => some (a, t)
/-- product -/
def pProd : Nat → Text → Option (E × Text)
  | 0, _ => none
  | n + 1, t => (pPow n t).bind fun p => mLoop n p.1 p.2
/-- further factors and divisors -/
def mLoop : Nat → E → Text → Option (E × Text)
  | 0, _, _ => none
  | n + 1, a, t =>
    match t with
    | '*' :: t => (pPow n t).bind fun p => mLoop n (.mul a p.1) p.2
    | '/' :: t => (pPow n t).bind fun p => mLoop n (.div a p.1) p.2
    | t => some (a, t)
/-- power -/
def pPow : Nat → Text → Option (E × Text)
  | 0, _ => none
  | n + 1, t => (pAtom n t).bind fun p =>
    match p.2 with
    | '*' :: '*' :: r => some (.pow p.1 (Nat.ofDigitChars 10 (r.takeWhile isW) 0), r.dropWhile isW)
    | r => some (p.1, r)
/-- parentheses, calls, numbers and names -/
def pAtom : Nat → Text → Option (E × Text)
  | 0, _ => none
  | n + 1, t =>
    match t with
    | '(' :: t => (pSum n t).bind fun p => (eat ')' p.2).bind fun r => some (.par p.1, r)
    | t =>
      match t.dropWhile isW with
      | '(' :: r =>
        if t.takeWhile isW = ['a', 't', 'a', 'n', '2'] then
          (pSum n r).bind fun p => (eat ',' p.2).bind fun r => (eat ' ' r).bind fun r =>
            (pSum n r).bind fun q => (eat ')' q.2).bind fun r => some (.at2 p.1 q.1, r)
        else (funOf (t.takeWhile isW)).bind fun f =>
          (pSum n r).bind fun p => (eat ')' p.2).bind fun r => some (.call f p.1, r)
      | r => plain (t.takeWhile isW) r
end

/-- with enough depth -/
def Ev (f : Nat → Option (E × Text)) (v : Option (E × Text)) : Prop := ∃ N, ∀ n, N ≤ n → f n = v

theorem Ev.unique {f : Nat → Option (E × Text)} {v w : Option (E × Text)} (h : Ev f v) (h' : Ev f w) : v = w := by
  obtain ⟨N, h⟩ := h; obtain ⟨N', h'⟩ := h'
  rw [← h (max N N') (by omega), h' (max N N') (by omega)]

/-- one step later -/
theorem Ev.step {f g : Nat → Option (E × Text)} {v : Option (E × Text)} (h : Ev g v) (hs : ∀ n, f (n + 1) = g n) : Ev f v := by
  obtain ⟨N, h⟩ := h
  refine ⟨N + 1, fun n hn => ?_⟩
  obtain ⟨n, rfl⟩ : ∃ k, n = k + 1 := ⟨n - 1, by omega⟩
  rw [hs, h n (by omega)]

theorem Ev.bind {f : Nat → Option (E × Text)} {p : E × Text} {k : Nat → E × Text → Option (E × Text)} {v : Option (E × Text)}
    (h : Ev f (some p)) (h' : Ev (fun n => k n p) v) : Ev (fun n => (f n).bind (k n)) v := by
  obtain ⟨N, h⟩ := h; obtain ⟨N', h'⟩ := h'
  exact ⟨max N N', fun n hn => by simp only [h n (by omega), Option.bind_some, h' n (by omega)]⟩

theorem Ev.const (v : Option (E × Text)) : Ev (fun _ => v) v := ⟨0, fun _ _ => rfl⟩

/-- what may follow an atom -/
def Stop (r : Text) : Prop := ∀ c, r.head? = some c → isW c = false ∧ c ≠ '('
/-- … a power -/
def NoPow (r : Text) : Prop := ∀ t, r ≠ '*' :: '*' :: t
/-- … a product -/
def NoMul (r : Text) : Prop := ∀ c, r.head? = some c → c ≠ '*' ∧ c ≠ '/'
/-- … a sum -/
def NoAdd (r : Text) : Prop := ∀ c, r.head? = some c → c ≠ ' '

theorem take_word {w r : Text} (hw : ∀ c ∈ w, isW c = true) (hr : ∀ c, r.head? = some c → isW c = false) :
    (w ++ r).takeWhile isW = w ∧ (w ++ r).dropWhile isW = r := by
  induction w with
  | nil =>
    cases r with
    | nil => simp
    | cons c r => have := hr c rfl; simp [this]
  | cons c w ih =>
    have h1 := hw c (by simp)
    have h2 := ih fun d hd => hw d (by simp [hd])
    simp [h1, h2]

theorem digits_W (n : Nat) : ∀ c ∈ digits n, isW c = true := by
  intro c hc
  have := Nat.isDigit_of_mem_toDigits (b := 10) (by omega) (by omega) hc
  simp [isW, Char.isAlphanum, this]

theorem funOf_text (f : Fun) : funOf f.text = some f := by cases f <;> decide
theorem text_W (f : Fun) : (∀ c ∈ f.text, isW c = true) ∧ f.text ≠ ['a', 't', 'a', 'n', '2'] ∧ f.text ≠ [] := by
  cases f <;> decide

theorem NoMul.noPow {r : Text} (h : NoMul r) : NoPow r := fun t ht => (h '*' (by rw [ht]; rfl)).1 rfl

theorem sLoop_stop {a : E} {r : Text} (h : NoAdd r) : Ev (fun n => sLoop n a r) (some (a, r)) := by
  refine (Ev.const _).step fun n => ?_
  rw [sLoop.eq_def]
  dsimp only
  split
  · exact absurd rfl (h ' ' rfl)
  · exact absurd rfl (h ' ' rfl)
  · rfl

theorem mLoop_stop {a : E} {r : Text} (h : NoMul r) : Ev (fun n => mLoop n a r) (some (a, r)) := by
  refine (Ev.const _).step fun n => ?_
  rw [mLoop.eq_def]
  dsimp only
  split
  · exact absurd rfl (h '*' rfl).1
  · exact absurd rfl (h '/' rfl).2
  · rfl

/-- the first character -/
theorem head_word {e : E} (h : e.Wf) (hl : 1 ≤ e.lvl) : ∃ c t, e.text = c :: t ∧ (isW c = true ∨ c = '(') := by
  induction e with
  | name s => obtain ⟨h1, h2, _⟩ := h; obtain ⟨c, t, rfl⟩ := List.exists_cons_of_ne_nil h1; exact ⟨c, t, rfl, .inl (h2 c (by simp))⟩
  | nat n =>
    obtain ⟨c, t, h1⟩ := List.exists_cons_of_ne_nil (digits_ne n)
    exact ⟨c, t, h1, .inl (digits_W n c (by rw [h1]; simp))⟩
  | call f a => cases f <;> exact ⟨_, _, rfl, .inl (by rfl)⟩
  | at2 a b => exact ⟨'a', _, rfl, .inl rfl⟩
  | par a => exact ⟨'(', _, rfl, .inr rfl⟩
  | pow a n ih => obtain ⟨c, t, h1, h2⟩ := ih h.1 (by have := h.2; omega); exact ⟨c, _, by rw [E.text, h1]; rfl, h2⟩
  | mul a b ih _ => obtain ⟨c, t, h1, h2⟩ := ih h.1 h.2.2.1; exact ⟨c, _, by rw [E.text, h1]; rfl, h2⟩
  | div a b ih _ => obtain ⟨c, t, h1, h2⟩ := ih h.1 h.2.2.1; exact ⟨c, _, by rw [E.text, h1]; rfl, h2⟩
  | add a b => simp [E.lvl] at hl
  | sub a b => simp [E.lvl] at hl
  | neg a => simp [E.lvl] at hl

/-- The four statements of the induction. -/
structure Reads (e : E) : Prop where
  atom : 3 ≤ e.lvl → ∀ r, Stop r → Ev (fun n => pAtom n (e.text ++ r)) (some (e, r))
  pow : 2 ≤ e.lvl → ∀ r, Stop r → NoPow r → Ev (fun n => pPow n (e.text ++ r)) (some (e, r))
  prod : 1 ≤ e.lvl → ∀ r v, Stop r → NoPow r → Ev (fun n => mLoop n e r) v → Ev (fun n => pProd n (e.text ++ r)) v
  sum : ∀ r v, Stop r → NoMul r → Ev (fun n => sLoop n e r) v → Ev (fun n => pSum n (e.text ++ r)) v

theorem Reads.ofProd {e : E} (hw : e.Wf) (hl : 1 ≤ e.lvl) (h3 : ¬ 2 ≤ e.lvl)
    (h : ∀ r v, Stop r → NoPow r → Ev (fun n => mLoop n e r) v → Ev (fun n => pProd n (e.text ++ r)) v) : Reads e := by
  refine ⟨fun h => absurd h (by omega), fun h => absurd h h3, fun _ => h, fun r v hs hm hv => ?_⟩
  obtain ⟨c, t, ht, hc⟩ := head_word hw hl
  have := Ev.bind (k := fun n p => sLoop n p.1 p.2) (h r _ hs hm.noPow (mLoop_stop hm)) hv
  refine this.step fun n => ?_
  rw [pSum.eq_def, ht]
  dsimp only
  split
  · rename_i h'; rw [List.cons_append] at h'; cases h'
    rcases hc with hc | hc
    · exact absurd hc (by decide)
    · exact absurd hc (by decide)
  · rfl

theorem Reads.ofPow {e : E} (hw : e.Wf) (hl : 2 ≤ e.lvl) (h3 : ¬ 3 ≤ e.lvl)
    (h : ∀ r, Stop r → NoPow r → Ev (fun n => pPow n (e.text ++ r)) (some (e, r))) : Reads e := by
  have hp : ∀ r v, Stop r → NoPow r → Ev (fun n => mLoop n e r) v → Ev (fun n => pProd n (e.text ++ r)) v := fun r v hs hn hv =>
    (Ev.bind (k := fun n p => mLoop n p.1 p.2) (h r hs hn) hv).step fun n => by rw [pProd]
  refine ⟨fun h => absurd h h3, fun _ => h, fun _ => hp, fun r v hs hm hv => ?_⟩
  obtain ⟨c, t, ht, hc⟩ := head_word hw (by omega)
  have := Ev.bind (k := fun n p => sLoop n p.1 p.2) (hp r _ hs hm.noPow (mLoop_stop hm)) hv
  refine this.step fun n => ?_
  rw [pSum.eq_def, ht]
  dsimp only
  split
  · rename_i h'; rw [List.cons_append] at h'; cases h'
    rcases hc with hc | hc
    · exact absurd hc (by decide)
    · exact absurd hc (by decide)
  · rfl

theorem pPow_of_atom {e : E} (h : ∀ r, Stop r → Ev (fun n => pAtom n (e.text ++ r)) (some (e, r))) :
    ∀ r, Stop r → NoPow r → Ev (fun n => pPow n (e.text ++ r)) (some (e, r)) := by
  intro r hs hn
  refine (Ev.bind (k := fun _ p => match p.2 with
    | '*' :: '*' :: r => some (.pow p.1 (Nat.ofDigitChars 10 (r.takeWhile isW) 0), r.dropWhile isW)
    | r => some (p.1, r)) (v := some (e, r)) (h r hs) ?_).step fun n => by rw [pPow]
  refine ⟨0, fun n _ => ?_⟩
  show (match r with
    | '*' :: '*' :: r => _
    | r => _) = _
  split
  · exact absurd rfl (hn _)
  · rfl

theorem Reads.ofAtom {e : E} (hw : e.Wf) (hl : 3 ≤ e.lvl)
    (h : ∀ r, Stop r → Ev (fun n => pAtom n (e.text ++ r)) (some (e, r))) : Reads e := by
  have hpw := pPow_of_atom h
  have hp : ∀ r v, Stop r → NoPow r → Ev (fun n => mLoop n e r) v → Ev (fun n => pProd n (e.text ++ r)) v := fun r v hs hn hv =>
    (Ev.bind (k := fun n p => mLoop n p.1 p.2) (hpw r hs hn) hv).step fun n => by rw [pProd]
  refine ⟨fun _ => h, fun _ => hpw, fun _ => hp, fun r v hs hm hv => ?_⟩
  obtain ⟨c, t, ht, hc⟩ := head_word hw (by omega)
  have := Ev.bind (k := fun n p => sLoop n p.1 p.2) (hp r _ hs hm.noPow (mLoop_stop hm)) hv
  refine this.step fun n => ?_
  rw [pSum.eq_def, ht]
  dsimp only
  split
  · rename_i h'; rw [List.cons_append] at h'; cases h'
    rcases hc with hc | hc
    · exact absurd hc (by decide)
    · exact absurd hc (by decide)
  · rfl

/-- a sum read up to a closing parenthesis or comma -/
theorem Reads.upto {e : E} (h : Reads e) (c : Char) (hc : c = ')' ∨ c = ',') (r : Text) :
    Ev (fun n => pSum n (e.text ++ c :: r)) (some (e, c :: r)) := by
  refine h.sum _ _ ?_ ?_ (sLoop_stop ?_)
  · intro d hd; simp at hd; subst hd; rcases hc with rfl | rfl <;> decide
  · intro d hd; simp at hd; subst hd; rcases hc with rfl | rfl <;> decide
  · intro d hd; simp at hd; subst hd; rcases hc with rfl | rfl <;> decide

/-- a word that is followed by something else than a parenthesis -/
theorem atom_plain {w r : Text} (h0 : w ≠ []) (hw : ∀ c ∈ w, isW c = true) (hs : Stop r) :
    ∀ n, pAtom (n + 1) (w ++ r) = plain w r := by
  intro n
  obtain ⟨h1, h2⟩ := take_word hw fun c hc => (hs c hc).1
  obtain ⟨c, w, rfl⟩ := List.exists_cons_of_ne_nil h0
  rw [pAtom.eq_def]
  dsimp only
  split
  · rename_i h; cases h; exact absurd (hw '(' (by simp)) (by decide)
  · rw [h1, h2]
    split
    · exact absurd rfl (hs '(' rfl).2
    · rfl

/-- a word that is followed by a parenthesis -/
theorem atom_call {w r : Text} (h0 : w ≠ []) (hw : ∀ c ∈ w, isW c = true) : ∀ n, pAtom (n + 1) (w ++ '(' :: r) =
    if w = ['a', 't', 'a', 'n', '2'] then
      (pSum n r).bind fun p => (eat ',' p.2).bind fun r => (eat ' ' r).bind fun r =>
        (pSum n r).bind fun q => (eat ')' q.2).bind fun r => some (.at2 p.1 q.1, r)
    else (funOf w).bind fun f => (pSum n r).bind fun p => (eat ')' p.2).bind fun r => some (.call f p.1, r) := by
  intro n
  obtain ⟨h1, h2⟩ := take_word (r := '(' :: r) hw fun c hc => by simp at hc; subst hc; decide
  obtain ⟨c, w, rfl⟩ := List.exists_cons_of_ne_nil h0
  rw [pAtom.eq_def]
  dsimp only
  split
  · rename_i h; cases h; exact absurd (hw '(' (by simp)) (by decide)
  · rw [h1, h2]; rfl

theorem reads : ∀ {e : E}, e.Wf → Reads e
  | .name s, h => .ofAtom h (by simp [E.lvl]) fun r hs => by
    refine (Ev.const _).step fun n => ?_
    rw [E.text, atom_plain h.1 h.2.1 hs]
    obtain ⟨c, w, rfl⟩ := List.exists_cons_of_ne_nil h.1
    simp [plain, h.2.2 c rfl]
  | .nat k, h => .ofAtom h (by simp [E.lvl]) fun r hs => by
    refine (Ev.const _).step fun n => ?_
    rw [E.text, atom_plain (digits_ne k) (digits_W k) hs]
    obtain ⟨c, w, hw⟩ := List.exists_cons_of_ne_nil (digits_ne k)
    have hd : c.isDigit = true := Nat.isDigit_of_mem_toDigits (b := 10) (n := k) (by omega) (by omega) (by
      have : c ∈ digits k := by rw [hw]; simp
      exact this)
    have : Nat.ofDigitChars 10 (c :: w) 0 = k := by rw [← hw]; exact Nat.ofDigitChars_ten_toDigits
    simp [plain, hw, hd, this]
  | .call f a, h => .ofAtom h (by simp [E.lvl]) fun r hs => by
    have ih := (reads (e := a) h).upto ')' (.inl rfl) r
    obtain ⟨h1, h2, h3⟩ := text_W f
    refine (Ev.bind (k := fun _ p => (eat ')' p.2).bind fun r => some (.call f p.1, r)) ih (Ev.const _)).step fun n => ?_
    have : (E.call f a).text ++ r = f.text ++ '(' :: (a.text ++ ')' :: r) := by simp [E.text]
    rw [this, atom_call h3 h1, if_neg h2, funOf_text]
    rfl
  | .at2 a b, h => .ofAtom h (by simp [E.lvl]) fun r hs => by
    have ih := (reads (e := a) h.1).upto ',' (.inr rfl) (' ' :: (b.text ++ ')' :: r))
    have ih' := (reads (e := b) h.2).upto ')' (.inl rfl) r
    refine (Ev.bind (k := fun n p => (eat ',' p.2).bind fun r => (eat ' ' r).bind fun r =>
        (pSum n r).bind fun q => (eat ')' q.2).bind fun r => some (.at2 p.1 q.1, r)) ih ?_).step fun n => ?_
    · exact Ev.bind (k := fun _ q => (eat ')' q.2).bind fun r => some (E.at2 a q.1, r)) ih' (Ev.const _)
    · have : (E.at2 a b).text ++ r = ['a', 't', 'a', 'n', '2'] ++ '(' :: (a.text ++ ',' :: ' ' :: (b.text ++ ')' :: r)) := by simp [E.text]
      rw [this, atom_call (by simp) (by decide), if_pos rfl]
  | .par a, h => .ofAtom h (by simp [E.lvl]) fun r hs => by
    have ih := (reads (e := a) h).upto ')' (.inl rfl) r
    refine (Ev.bind (k := fun _ p => (eat ')' p.2).bind fun r => some (.par p.1, r)) ih (Ev.const _)).step fun n => ?_
    have : (E.par a).text ++ r = '(' :: (a.text ++ ')' :: r) := by simp [E.text]
    rw [this, pAtom]
  | .pow a k, h => .ofPow h (by simp [E.lvl]) (by simp [E.lvl]) fun r hs hn => by
    have ih := (reads (e := a) h.1).atom h.2 ('*' :: '*' :: (digits k ++ r)) (by intro c hc; simp at hc; subst hc; decide)
    obtain ⟨h1, h2⟩ := take_word (r := r) (digits_W k) fun c hc => (hs c hc).1
    have hk : Nat.ofDigitChars 10 (digits k) 0 = k := Nat.ofDigitChars_ten_toDigits
    refine (Ev.bind (k := fun _ p => match p.2 with
      | '*' :: '*' :: r => some (.pow p.1 (Nat.ofDigitChars 10 (r.takeWhile isW) 0), r.dropWhile isW)
      | r => some (p.1, r)) (v := some (.pow a k, r)) ih ⟨0, fun n _ => ?_⟩).step fun n => ?_
    · simp only [h1, h2, hk]
    · have : (E.pow a k).text ++ r = a.text ++ '*' :: '*' :: (digits k ++ r) := by simp [E.text]
      rw [this, pPow]
  | .mul a b, h => .ofProd h (by simp [E.lvl]) (by simp [E.lvl]) fun r v hs hn hv => by
    have e1 : (E.mul a b).text ++ r = a.text ++ '*' :: (b.text ++ r) := by simp [E.text]
    rw [e1]
    obtain ⟨c, t, ht, hc⟩ := head_word h.2.1 (by have := h.2.2.2; omega)
    refine (reads (e := a) h.1).prod h.2.2.1 _ _ (by intro c hc; simp at hc; subst hc; decide) ?_ ?_
    · intro t' h'; rw [ht] at h'; simp at h'
      rcases hc with hc | hc <;> rw [h'.1] at hc <;> exact absurd hc (by decide)
    · refine (Ev.bind (k := fun n p => mLoop n (.mul a p.1) p.2) ((reads (e := b) h.2.1).pow h.2.2.2 r hs hn) hv).step fun n => ?_
      rw [mLoop]
  | .div a b, h => .ofProd h (by simp [E.lvl]) (by simp [E.lvl]) fun r v hs hn hv => by
    have e1 : (E.div a b).text ++ r = a.text ++ '/' :: (b.text ++ r) := by simp [E.text]
    rw [e1]
    refine (reads (e := a) h.1).prod h.2.2.1 _ _ (by intro c hc; simp at hc; subst hc; decide) (by intro t ht; cases ht) ?_
    refine (Ev.bind (k := fun n p => mLoop n (.div a p.1) p.2) ((reads (e := b) h.2.1).pow h.2.2.2 r hs hn) hv).step fun n => ?_
    rw [mLoop]
  | .add a b, h => ⟨fun h => absurd h (by simp [E.lvl]), fun h => absurd h (by simp [E.lvl]), fun h => absurd h (by simp [E.lvl]),
    fun r v hs hm hv => by
      have e1 : (E.add a b).text ++ r = a.text ++ ' ' :: '+' :: ' ' :: (b.text ++ r) := by simp [E.text]
      rw [e1]
      refine (reads (e := a) h.1).sum _ _ (by intro c hc; simp at hc; subst hc; decide) (by intro c hc; simp at hc; subst hc; decide) ?_
      refine (Ev.bind (k := fun n p => sLoop n (.add a p.1) p.2)
        ((reads (e := b) h.2.1).prod h.2.2 r _ hs hm.noPow (mLoop_stop hm)) hv).step fun n => ?_
      rw [sLoop]⟩
  | .sub a b, h => ⟨fun h => absurd h (by simp [E.lvl]), fun h => absurd h (by simp [E.lvl]), fun h => absurd h (by simp [E.lvl]),
    fun r v hs hm hv => by
      have e1 : (E.sub a b).text ++ r = a.text ++ ' ' :: '-' :: ' ' :: (b.text ++ r) := by simp [E.text]
      rw [e1]
      refine (reads (e := a) h.1).sum _ _ (by intro c hc; simp at hc; subst hc; decide) (by intro c hc; simp at hc; subst hc; decide) ?_
      refine (Ev.bind (k := fun n p => sLoop n (.sub a p.1) p.2)
        ((reads (e := b) h.2.1).prod h.2.2 r _ hs hm.noPow (mLoop_stop hm)) hv).step fun n => ?_
      rw [sLoop]⟩
  | .neg a, h => ⟨fun h => absurd h (by simp [E.lvl]), fun h => absurd h (by simp [E.lvl]), fun h => absurd h (by simp [E.lvl]),
    fun r v hs hm hv => by
      refine (Ev.bind (k := fun n p => sLoop n (.neg p.1) p.2)
        ((reads (e := a) h.1).prod h.2 r _ hs hm.noPow (mLoop_stop hm)) hv).step fun n => ?_
      rw [E.text, List.cons_append, pSum]⟩

/-- the whole text is read -/
theorem parses {e : E} (h : e.Wf) : Ev (fun n => pSum n e.text) (some (e, [])) := by
  have := (reads h).sum [] (some (e, [])) (by intro c hc; simp at hc) (by intro c hc; simp at hc) (sLoop_stop (by intro c hc; simp at hc))
  simpa using this

end Verif.Out.Parse

namespace Verif.Out

/-- C46: a text is the text of at most one well-formed expression. -/
theorem C46_unambiguous {e e' : E} (h : e.Wf) (h' : e'.Wf) (ht : e.text = e'.text) : e = e' := by
  have h1 := Parse.parses h
  rw [ht] at h1
  have := h1.unique (Parse.parses h')
  simpa using this

/-- The value of a text in python: that of the expression with this text. -/
def PyMeans (env : Text → ℝ) (t : Text) (v : ℝ) : Prop := ∃ e : E, e.Wf ∧ e.text = t ∧ e.val env = v

/-- The value of a text in C++ (none if it is no expression of C++). -/
def CppMeans (env : Text → ℝ) (t : Text) (v : ℝ) : Prop := ∃ e : E, e.Wf ∧ e.text = t ∧ e.cval env = some v

/-- Texts have at most one value. -/
theorem C46_one_value (env : Text → ℝ) (t : Text) {v w : ℝ} :
    (PyMeans env t v → PyMeans env t w → v = w) ∧ (CppMeans env t v → CppMeans env t w → v = w) := by
  constructor
  · rintro ⟨e, h, ht, rfl⟩ ⟨e', h', ht', rfl⟩
    rw [C46_unambiguous h h' (ht.trans ht'.symm)]
  · rintro ⟨e, h, ht, hv⟩ ⟨e', h', ht', hw⟩
    rw [C46_unambiguous h h' (ht.trans ht'.symm), hw] at hv
    exact (Option.some.inj hv).symm

/-- C46 for texts (partial, as `C46_line_partial`): what the line written means in C++ is exactly what the text means in python. -/
theorem C46_text_partial (e : E) (hok : e.ok false) (hwf : e.Wf) (hd : e.noIntDiv) (env : Text → ℝ) (v : ℝ) :
    CppMeans env (cppLine e.text) v ↔ PyMeans env e.text v := by
  obtain ⟨e', h1, h2, _, _, h5⟩ := C46_line_partial e hok hwf hd
  have hc : CppMeans env (cppLine e.text) (e.val env) := ⟨e', h2, h1.symm, h5 env⟩
  have hp : PyMeans env e.text (e.val env) := ⟨e, hwf, rfl, rfl⟩
  constructor
  · intro h; rw [(C46_one_value env _).2 h hc]; exact hp
  · intro h; rw [(C46_one_value env _).1 h hp]; exact hc

/-- C46 violation for texts: `y/x**2` is written as `y/x*x`, which means something else in C++. -/
theorem C46_text_violation : ∃ (env : Text → ℝ) (v w : ℝ), PyMeans env "y/x**2".toList v ∧ cppLine "y/x**2".toList = "y/x*x".toList ∧
    CppMeans env (cppLine "y/x**2".toList) w ∧ ¬ CppMeans env (cppLine "y/x**2".toList) v := by
  have hl : cppLine "y/x**2".toList = "y/x*x".toList := by decide
  have hc : CppMeans (fun _ => 2) (cppLine "y/x**2".toList) 2 := by
    refine ⟨.mul (.div (.name ['y']) (.name ['x'])) (.name ['x']), ?_, by rw [hl]; rfl, ?_⟩
    · simp [E.Wf, E.lvl]; decide
    · simp [E.cval, E.isInt]
  refine ⟨fun _ => 2, 1 / 2, 2, ⟨.div (.name ['y']) (.pow (.name ['x']) 2), ?_, rfl, ?_⟩, hl, hc, fun h => ?_⟩
  · simp [E.Wf, E.lvl]; decide
  · simp [E.val]; norm_num
  · have := (C46_one_value _ _).2 h hc; norm_num at this

/-- Instance: a text with a square, a call and a sum. -/
example : CppMeans (fun _ => 3) (cppLine "x**2 + y*sin(x)".toList) (9 + 3 * Real.sin 3) := by
  have := (C46_text_partial (.add (.pow (.name ['x']) 2) (.mul (.name ['y']) (.call .sin (.name ['x'])))) (by simp [E.ok])
    (by simp [E.Wf, E.lvl]; decide) (by simp [E.noIntDiv]) (fun _ => 3) (9 + 3 * Real.sin 3)).2
    ⟨_, by simp [E.Wf, E.lvl]; decide, rfl, by simp [E.val, Fun.eval]; norm_num⟩
  exact this

end Verif.Out
