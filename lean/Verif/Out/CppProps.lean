import Verif.Out.CppExpr
import Mathlib.Analysis.Real.Pi.Bounds
/-!
# C46: the C++ lines that come out of `cpp_output.line`

`E.Ok` is the fragment of expressions on which the two substitutions are right; outside it there are counterexamples below.
-/
namespace Verif.Out
open Verif.Sym

/-- no parenthesis in the text -/
def E.parFree : E → Bool
  | .name _ | .nat _ => true
  | .call _ _ | .at2 _ _ | .par _ => false
  | .pow a _ | .neg a => a.parFree
  | .mul a b | .div a b | .add a b | .sub a b => a.parFree && b.parFree

def E.isPow : E → Bool
  | .pow _ _ => true
  | _ => false

/-- The expressions that `line` treats rightly: only squares, of a name, of a number, or of `sin`/`cos` of something without
parentheses; the latter not inside the argument of a function; and no divisor is a square. The flag says whether the expression
is inside the argument of one of the functions of `Fun`. -/
def E.ok : Bool → E → Bool
  | _, .name _ | _, .nat _ => true
  | _, .call _ a => a.ok true
  | i, .at2 a b => a.ok i && b.ok i
  | i, .par a => a.ok i
  | i, .pow a n => n == 2 && match a with
    | .name _ | .nat _ => true
    | .call .sin x | .call .cos x => !i && x.parFree && x.ok true
    | _ => false
  | i, .mul a b | i, .add a b | i, .sub a b => a.ok i && b.ok i
  | i, .div a b => a.ok i && b.ok i && !b.isPow
  | i, .neg a => a.ok i

/-- the product of a product with a product, without parentheses -/
def mulR (l : E) : E → E
  | .mul a b => .mul (.mul l a) b
  | r => .mul l r

/-- Squares of the expressions in `p` written as products: the tree of the C++ expression. -/
def E.sq (p : E → Bool) : E → E
  | .name s => .name s
  | .nat n => .nat n
  | .call f a => .call f (a.sq p)
  | .at2 a b => .at2 (a.sq p) (b.sq p)
  | .par a => .par (a.sq p)
  | .pow a n => if p (a.sq p) && n == 2 then .mul (a.sq p) (a.sq p) else .pow (a.sq p) n
  | .mul a b => mulR (a.sq p) (b.sq p)
  | .div a b => .div (a.sq p) (b.sq p)
  | .add a b => .add (a.sq p) (b.sq p)
  | .sub a b => .sub (a.sq p) (b.sq p)
  | .neg a => .neg (a.sq p)

def isWord : E → Bool
  | .name _ | .nat _ => true
  | _ => false
def isCall : E → Bool
  | .call _ _ => true
  | _ => false

/-- no square of a word left -/
def E.noW : E → Bool
  | .name _ | .nat _ => true
  | .call _ a | .par a | .neg a => a.noW
  | .pow a _ => a.noW && !isWord a
  | .mul a b | .div a b | .add a b | .sub a b | .at2 a b => a.noW && b.noW

/-! ## The tree -/

theorem mulR_text (l r : E) : (mulR l r).text = l.text ++ '*' :: r.text := by
  cases r <;> simp [mulR, E.text]

theorem mulR_val (env) (l r : E) : (mulR l r).val env = l.val env * r.val env := by
  cases r <;> simp [mulR, E.val, mul_assoc]

theorem mulR_lvl (l r : E) : (mulR l r).lvl = 1 := by
  cases r <;> simp [mulR, E.lvl]

theorem sq_val (p : E → Bool) (env) (e : E) : (e.sq p).val env = e.val env := by
  induction e with
  | pow a n ih =>
    simp only [E.sq]; split
    · rename_i h; simp only [Bool.and_eq_true, beq_iff_eq] at h
      simp [E.val, ih, h.2, pow_two]
    · simp [E.val, ih]
  | mul a b iha ihb => simp [E.sq, mulR_val, iha, ihb, E.val]
  | _ => simp [E.sq, E.val, *]

/-- what becomes of the binding strength -/
theorem sq_lvl (p : E → Bool) (e : E) : (e.sq p).lvl = e.lvl ∨ (∃ a n, e = .pow a n ∧ e.sq p = .mul (a.sq p) (a.sq p)) := by
  cases e with
  | pow a n =>
    simp only [E.sq]; split
    · exact Or.inr ⟨a, n, rfl, rfl⟩
    · exact Or.inl rfl
  | mul a b => left; rw [E.sq, mulR_lvl]; rfl
  | _ => left; simp [E.sq, E.lvl]

theorem sq_lvl_ge (p : E → Bool) {e : E} (h : 1 ≤ e.lvl) : 1 ≤ (e.sq p).lvl := by
  rcases sq_lvl p e with h' | ⟨a, n, _, h'⟩
  · omega
  · simp [h', E.lvl]

theorem sq_lvl3 (p : E → Bool) {e : E} (h : 3 ≤ e.lvl) : 3 ≤ (e.sq p).lvl := by
  rcases sq_lvl p e with h' | ⟨a, n, h1, h'⟩
  · omega
  · subst h1; simp [E.lvl] at h

theorem mulR_wf {l r : E} (hl : l.Wf) (hl1 : 1 ≤ l.lvl) (hr : r.Wf)
    (h : 2 ≤ r.lvl ∨ ∃ a, r = .mul a a ∧ 3 ≤ a.lvl) : (mulR l r).Wf := by
  rcases h with h | ⟨a, rfl, h⟩
  · cases r with
    | mul a b => simp [E.lvl] at h
    | _ => exact ⟨hl, hr, hl1, h⟩
  · simp only [E.Wf] at hr
    exact ⟨⟨hl, hr.1, hl1, by omega⟩, hr.1, by simp [E.lvl], by omega⟩

theorem ok_pow {i : Bool} {a : E} {n : Nat} (h : (E.pow a n).ok i) : n = 2 ∧ (isWord a = true ∨
    ∃ f x, (f = Fun.sin ∨ f = Fun.cos) ∧ a = .call f x ∧ i = false ∧ x.parFree ∧ x.ok true) := by
  cases a with
  | call f x => cases f <;> simp_all [E.ok, isWord]
  | _ => simp_all [E.ok, isWord]

theorem sq_wf (p : E → Bool) {i : Bool} {e : E} (hok : e.ok i) (h : e.Wf) : (e.sq p).Wf := by
  induction e generalizing i with
  | name s => exact h
  | nat n => trivial
  | call f a ih => exact ih (i := true) (by simpa [E.ok] using hok) h
  | at2 a b iha ihb =>
    simp only [E.ok, Bool.and_eq_true] at hok
    exact ⟨iha hok.1 h.1, ihb hok.2 h.2⟩
  | par a ih => exact ih (by simpa [E.ok] using hok) h
  | pow a n ih =>
    have ha : (a.sq p).Wf := by
      obtain ⟨_, hw | ⟨f, x, hf, rfl, _, _, hx⟩⟩ := ok_pow hok
      · cases a <;> simp [isWord] at hw
        · exact h.1
        · trivial
      · exact ih (i := true) (by simpa [E.ok] using hx) h.1
    have h3 := sq_lvl3 p h.2
    simp only [E.sq]; split
    · exact ⟨ha, ha, by omega, by omega⟩
    · exact ⟨ha, h3⟩
  | mul a b iha ihb =>
    simp only [E.ok, Bool.and_eq_true] at hok
    obtain ⟨h1, h2, h3, h4⟩ := h
    refine mulR_wf (iha hok.1 h1) (sq_lvl_ge p h3) (ihb hok.2 h2) ?_
    rcases sq_lvl p b with h' | ⟨a', n, hb, h'⟩
    · left; omega
    · subst hb; exact Or.inr ⟨_, h', sq_lvl3 p h2.2⟩
  | div a b iha ihb =>
    simp only [E.ok, Bool.and_eq_true] at hok
    obtain ⟨h1, h2, h3, h4⟩ := h
    refine ⟨iha hok.1.1 h1, ihb hok.1.2 h2, sq_lvl_ge p h3, ?_⟩
    rcases sq_lvl p b with h' | ⟨a', n, hb, h'⟩
    · omega
    · subst hb; simp [E.isPow] at hok
  | add a b iha ihb =>
    simp only [E.ok, Bool.and_eq_true] at hok
    exact ⟨iha hok.1 h.1, ihb hok.2 h.2.1, sq_lvl_ge p h.2.2⟩
  | sub a b iha ihb =>
    simp only [E.ok, Bool.and_eq_true] at hok
    exact ⟨iha hok.1 h.1, ihb hok.2 h.2.1, sq_lvl_ge p h.2.2⟩
  | neg a ih => exact ⟨ih (by simpa [E.ok] using hok) h.1, sq_lvl_ge p h.2⟩

theorem mulR_ok {i : Bool} {l r : E} (hl : l.ok i) (hr : r.ok i) : (mulR l r).ok i := by
  cases r <;> simp_all [mulR, E.ok]
theorem mulR_noW {l r : E} (hl : l.noW) (hr : r.noW) : (mulR l r).noW := by
  cases r <;> simp_all [mulR, E.noW]
theorem mulR_parFree {l r : E} (hl : l.parFree) (hr : r.parFree) : (mulR l r).parFree := by
  cases r <;> simp_all [mulR, E.parFree]

theorem sq_parFree (p : E → Bool) {e : E} (h : e.parFree) : (e.sq p).parFree := by
  induction e with
  | pow a n ih =>
    simp only [E.sq]; split <;> simp_all [E.parFree]
  | mul a b iha ihb =>
    simp only [E.parFree, Bool.and_eq_true] at h
    exact mulR_parFree (iha h.1) (ihb h.2)
  | _ => simp_all [E.sq, E.parFree]

theorem sq_isPow (p : E → Bool) {e : E} (h : e.isPow = false) : (e.sq p).isPow = false := by
  cases e with
  | mul a b => simp only [E.sq]; cases b.sq p <;> simp [mulR, E.isPow]
  | pow a n => simp [E.isPow] at h
  | _ => simp [E.sq, E.isPow]

/-- after the first substitution the rest is still good for the second -/
theorem sq_ok {i : Bool} {e : E} (h : e.ok i) : (e.sq isWord).ok i ∧ (e.sq isWord).noW := by
  induction e generalizing i with
  | name s => exact ⟨rfl, rfl⟩
  | nat n => exact ⟨rfl, rfl⟩
  | call f a ih =>
    have := ih (i := true) (by simpa [E.ok] using h)
    simpa [E.sq, E.ok, E.noW] using this
  | at2 a b iha ihb =>
    simp only [E.ok, Bool.and_eq_true] at h
    have h1 := iha h.1; have h2 := ihb h.2
    simp [E.sq, E.ok, E.noW, h1, h2]
  | par a ih =>
    have := ih (i := i) (by simpa [E.ok] using h)
    simpa [E.sq, E.ok, E.noW] using this
  | pow a n ih =>
    obtain ⟨rfl, hw | ⟨f, x, hf, rfl, rfl, hp, hx⟩⟩ := ok_pow h
    · cases a <;> simp [isWord] at hw <;> simp [E.sq, isWord, E.ok, E.noW]
    · have := ih (i := true) (by simpa [E.ok] using hx)
      simp only [E.sq, E.ok, E.noW] at this
      rcases hf with rfl | rfl <;> simp [E.sq, isWord, E.ok, E.noW, sq_parFree isWord hp, this]
  | mul a b iha ihb =>
    simp only [E.ok, Bool.and_eq_true] at h
    have h1 := iha h.1; have h2 := ihb h.2
    exact ⟨mulR_ok h1.1 h2.1, mulR_noW h1.2 h2.2⟩
  | div a b iha ihb =>
    simp only [E.ok, Bool.and_eq_true, Bool.not_eq_true'] at h
    have h1 := iha h.1.1; have h2 := ihb h.1.2
    simp [E.sq, E.ok, E.noW, h1, h2, sq_isPow _ h.2]
  | add a b iha ihb =>
    simp only [E.ok, Bool.and_eq_true] at h
    have h1 := iha h.1; have h2 := ihb h.2
    simp [E.sq, E.ok, E.noW, h1, h2]
  | sub a b iha ihb =>
    simp only [E.ok, Bool.and_eq_true] at h
    have h1 := iha h.1; have h2 := ihb h.2
    simp [E.sq, E.ok, E.noW, h1, h2]
  | neg a ih =>
    have := ih (i := i) (by simpa [E.ok] using h)
    simpa [E.sq, E.ok, E.noW] using this

/-! ## The text -/

/-- what may follow an expression: no character of a word, no `(`, no `**` -/
def Sep (k : Text) : Prop := ∀ c t, k = c :: t → isW c = false ∧ c ≠ '(' ∧ (c = '*' → ∀ u, t ≠ '*' :: u)

theorem isW_ne {c d : Char} (h : isW c = true) (hd : isW d = false) : c ≠ d := by
  rintro rfl; rw [h] at hd; cases hd

theorem isW_of_isLo {c : Char} (h : isLo c = true) : isW c = true := by
  simp only [isLo] at h
  simp [isW, Char.isAlphanum, Char.isAlpha, h]

theorem digits_isW (n : Nat) : ∀ c ∈ digits n, isW c = true := by
  intro c hc
  have := Nat.isDigit_of_mem_toDigits (by omega) (by omega) hc
  simp [isW, Char.isAlphanum, this]

theorem digits_ne (n : Nat) : digits n ≠ [] := Nat.toDigits_ne_nil

theorem fun_isW (f : Fun) : ∀ c ∈ f.text, isW c = true := by
  cases f <;> decide

/-- expressions begin with a word, a parenthesis or a sign -/
theorem text_head {e : E} (h : e.Wf) : ∃ c t, e.text = c :: t ∧ c ≠ '*' ∧ c ≠ ')' := by
  induction e with
  | name s =>
    obtain ⟨h1, h2, _⟩ := h
    cases s with
    | nil => exact absurd rfl h1
    | cons c t =>
      exact ⟨c, t, rfl, isW_ne (h2 c (by simp)) (by decide), isW_ne (h2 c (by simp)) (by decide)⟩
  | nat n =>
    cases hd : digits n with
    | nil => exact absurd hd (digits_ne n)
    | cons c t =>
      have := digits_isW n c (by simp [hd])
      exact ⟨c, t, hd, isW_ne this (by decide), isW_ne this (by decide)⟩
  | call f a ih => cases f <;> exact ⟨_, _, rfl, by decide, by decide⟩
  | at2 a b iha ihb => exact ⟨_, _, rfl, by decide, by decide⟩
  | par a ih => exact ⟨_, _, rfl, by decide, by decide⟩
  | pow a n ih =>
    obtain ⟨c, t, h1, h2⟩ := ih h.1
    exact ⟨c, t ++ '*' :: '*' :: digits n, by simp [E.text, h1], h2⟩
  | mul a b ih _ =>
    obtain ⟨c, t, h1, h2⟩ := ih h.1
    exact ⟨c, t ++ '*' :: b.text, by simp [E.text, h1], h2⟩
  | div a b ih _ =>
    obtain ⟨c, t, h1, h2⟩ := ih h.1
    exact ⟨c, t ++ '/' :: b.text, by simp [E.text, h1], h2⟩
  | add a b ih _ =>
    obtain ⟨c, t, h1, h2⟩ := ih h.1
    exact ⟨c, t ++ ' ' :: '+' :: ' ' :: b.text, by simp [E.text, h1], h2⟩
  | sub a b ih _ =>
    obtain ⟨c, t, h1, h2⟩ := ih h.1
    exact ⟨c, t ++ ' ' :: '-' :: ' ' :: b.text, by simp [E.text, h1], h2⟩
  | neg a ih => exact ⟨_, _, rfl, by decide, by decide⟩

theorem sep_mul {b : E} (h : b.Wf) (k : Text) : Sep ('*' :: (b.text ++ k)) := by
  obtain ⟨c, t, h1, h2, _⟩ := text_head h
  rintro c' t' h'
  cases h'
  refine ⟨by decide, by decide, fun _ u hu => ?_⟩
  rw [h1] at hu; cases hu; exact h2 rfl

theorem sep_cons {c : Char} (k : Text) (h1 : isW c = false) (h2 : c ≠ '(') (h3 : c ≠ '*') : Sep (c :: k) := by
  rintro c' t' h'; cases h'
  exact ⟨h1, h2, fun h => absurd h h3⟩

theorem sep_nil : Sep [] := by rintro c t h; cases h

/-- calls and parentheses need no separator -/
def E.closed : E → Bool
  | .call _ _ | .at2 _ _ | .par _ => true
  | _ => false

/-! ### first substitution -/

theorem sub1_cons {c : Char} {run k : Text} (h : ∀ u, c :: k ≠ '*' :: '*' :: '2' :: u) :
    sub1 run (c :: k) = if isW c then sub1 (run ++ [c]) k else run ++ c :: sub1 [] k := by
  rw [sub1.eq_def]
  split
  · rename_i cs h'; exact absurd h' (h cs)
  · rename_i h'; injection h' with h1 h2; subst h1 h2; rfl
  · rename_i h'; cases h'

theorem sub1_word {w : Text} (hw : ∀ c ∈ w, isW c = true) (run k : Text) : sub1 run (w ++ k) = sub1 (run ++ w) k := by
  induction w generalizing run with
  | nil => simp
  | cons c w ih =>
    have hc := hw c (by simp)
    have hne : c ≠ '*' := isW_ne hc (by decide)
    rw [List.cons_append, sub1_cons (by rintro u h; injection h with h; exact hne h), if_pos hc,
      ih (fun c h => hw c (by simp [h]))]
    simp

theorem sub1_sep {k : Text} (h : Sep k) (run : Text) : sub1 run k = run ++ sub1 [] k := by
  cases k with
  | nil => simp [sub1]
  | cons c k =>
    obtain ⟨h1, _, h3⟩ := h c k rfl
    have hn : ∀ u, c :: k ≠ '*' :: '*' :: '2' :: u := by
      rintro u hu; injection hu with hu hv; exact h3 hu _ hv
    rw [sub1_cons hn, sub1_cons hn]; simp [h1]

theorem sub1_op {c : Char} (h : isW c = false) (h2 : c ≠ '*') (run k : Text) : sub1 run (c :: k) = run ++ c :: sub1 [] k := by
  rw [sub1_cons (by rintro u hu; injection hu with hu; exact h2 hu)]; simp [h]

theorem sub1_star {k : Text} (h : Sep ('*' :: k)) : sub1 [] ('*' :: k) = '*' :: sub1 [] k := by
  rw [sub1_cons (by rintro u hu; injection hu with hu hv; exact (h '*' k rfl).2.2 rfl _ hv)]
  rfl

theorem sub1_wordsq {w k : Text} (hw : ∀ c ∈ w, isW c = true) (hne : w ≠ []) :
    sub1 [] (w ++ '*' :: '*' :: '2' :: k) = w ++ '*' :: w ++ sub1 [] k := by
  rw [sub1_word hw, List.nil_append, sub1, if_neg hne]

theorem sub1_callsq {k : Text} (h : Sep k) : sub1 [] ('*' :: '*' :: '2' :: k) = '*' :: '*' :: '2' :: sub1 [] k := by
  rw [sub1, if_pos rfl]
  congr 1
  rw [sub1_star (sep_cons_star k)]
  congr 1
  have := sub1_word (w := ['2']) (by decide) [] k
  simp only [List.singleton_append, List.nil_append] at this
  rw [this, sub1_sep h]
  rfl
where
  sep_cons_star (k : Text) : Sep ('*' :: '2' :: k) := by
    rintro c t h; cases h; exact ⟨by decide, by decide, by rintro _ u hu; cases hu⟩

theorem digits_two : digits 2 = ['2'] := by decide

theorem sub1_text {i : Bool} {e : E} (hok : e.ok i) (hwf : e.Wf) {k : Text} (hk : Sep k ∨ e.closed = true) :
    sub1 [] (e.text ++ k) = (e.sq isWord).text ++ sub1 [] k := by
  induction e generalizing i k with
  | name s =>
    simp only [E.text, E.sq]
    rw [sub1_word hwf.2.1, List.nil_append, sub1_sep (by simpa [E.closed] using hk)]
  | nat n =>
    simp only [E.text, E.sq]
    rw [sub1_word (digits_isW n), List.nil_append, sub1_sep (by simpa [E.closed] using hk)]
  | call f a ih =>
    have := ih (i := true) (by simpa [E.ok] using hok) hwf (k := ')' :: k) (.inl (sep_cons _ (by decide) (by decide) (by decide)))
    simp only [E.text, E.sq, List.append_assoc, List.cons_append, List.nil_append]
    rw [sub1_word (fun_isW f), List.nil_append, sub1_op (by decide) (by decide), this, sub1_op (by decide) (by decide)]
    simp
  | at2 a b iha ihb =>
    simp only [E.ok, Bool.and_eq_true] at hok
    have h2 := ihb hok.2 hwf.2 (k := ')' :: k) (.inl (sep_cons _ (by decide) (by decide) (by decide)))
    have h1 := iha hok.1 hwf.1 (k := ',' :: ' ' :: (b.text ++ ')' :: k)) (.inl (sep_cons _ (by decide) (by decide) (by decide)))
    have hw := sub1_word (w := ['a', 't', 'a', 'n', '2']) (by decide) [] ('(' :: (a.text ++ ',' :: ' ' :: (b.text ++ ')' :: k)))
    simp only [E.text, E.sq, List.append_assoc, List.cons_append, List.nil_append] at hw ⊢
    rw [hw, sub1_op (by decide) (by decide), h1, sub1_op (by decide) (by decide), sub1_op (by decide) (by decide), h2,
      sub1_op (by decide) (by decide)]
    simp
  | par a ih =>
    have := ih (by simpa [E.ok] using hok) hwf (k := ')' :: k) (.inl (sep_cons _ (by decide) (by decide) (by decide)))
    simp only [E.text, E.sq, List.append_assoc, List.cons_append, List.nil_append]
    rw [sub1_op (by decide) (by decide), this, sub1_op (by decide) (by decide)]
    simp
  | pow a n ih =>
    replace hk : Sep k := by simpa [E.closed] using hk
    obtain ⟨rfl, hw | ⟨f, x, hf, rfl, rfl, hp, hx⟩⟩ := ok_pow hok
    · cases a with
      | name s =>
        have := sub1_wordsq (k := k) hwf.1.2.1 hwf.1.1
        simpa [E.text, E.sq, isWord, digits_two] using this
      | nat m =>
        have := sub1_wordsq (k := k) (digits_isW m) (digits_ne m)
        simpa [E.text, E.sq, isWord, digits_two] using this
      | _ => simp [isWord] at hw
    · have := ih (i := true) (k := '*' :: '*' :: '2' :: k) (by simpa [E.ok] using hx) hwf.1 (.inr rfl)
      rw [sub1_callsq hk] at this
      simpa [E.text, E.sq, isWord, digits_two] using this
  | mul a b iha ihb =>
    replace hk : Sep k := by simpa [E.closed] using hk
    simp only [E.ok, Bool.and_eq_true] at hok
    have h2 := ihb hok.2 hwf.2.1 (.inl hk)
    have hs := sep_mul hwf.2.1 k
    have h1 := iha hok.1 hwf.1 (.inl hs)
    simp only [E.text, E.sq, mulR_text, List.append_assoc, List.cons_append]
    rw [h1, sub1_star hs, h2]
  | div a b iha ihb =>
    replace hk : Sep k := by simpa [E.closed] using hk
    simp only [E.ok, Bool.and_eq_true] at hok
    have h2 := ihb hok.1.2 hwf.2.1 (.inl hk)
    have h1 := iha hok.1.1 hwf.1 (k := '/' :: (b.text ++ k)) (.inl (sep_cons _ (by decide) (by decide) (by decide)))
    simp only [E.text, E.sq, List.append_assoc, List.cons_append]
    rw [h1, sub1_op (by decide) (by decide), h2]; simp
  | add a b iha ihb =>
    replace hk : Sep k := by simpa [E.closed] using hk
    simp only [E.ok, Bool.and_eq_true] at hok
    have h2 := ihb hok.2 hwf.2.1 (.inl hk)
    have h1 := iha hok.1 hwf.1 (k := ' ' :: '+' :: ' ' :: (b.text ++ k)) (.inl (sep_cons _ (by decide) (by decide) (by decide)))
    simp only [E.text, E.sq, List.append_assoc, List.cons_append]
    rw [h1, sub1_op (by decide) (by decide), sub1_op (by decide) (by decide), sub1_op (by decide) (by decide), h2]; simp
  | sub a b iha ihb =>
    replace hk : Sep k := by simpa [E.closed] using hk
    simp only [E.ok, Bool.and_eq_true] at hok
    have h2 := ihb hok.2 hwf.2.1 (.inl hk)
    have h1 := iha hok.1 hwf.1 (k := ' ' :: '-' :: ' ' :: (b.text ++ k)) (.inl (sep_cons _ (by decide) (by decide) (by decide)))
    simp only [E.text, E.sq, List.append_assoc, List.cons_append]
    rw [h1, sub1_op (by decide) (by decide), sub1_op (by decide) (by decide), sub1_op (by decide) (by decide), h2]; simp
  | neg a ih =>
    replace hk : Sep k := by simpa [E.closed] using hk
    have := ih (by simpa [E.ok] using hok) hwf.1 (.inl hk)
    simp only [E.text, E.sq, List.cons_append]
    rw [sub1_op (by decide) (by decide), this]; simp


/-! ### second substitution -/

theorem m2_none {c : Char} {k : Text} (h : isLo c = false) : m2 (c :: k) = none := by
  unfold m2; split
  · rename_i h'; injection h' with h1 h2; subst h1; simp [h]
  · rfl

theorem sub2_none {c : Char} {k : Text} (h : m2 (c :: k) = none) : sub2 0 (c :: k) = c :: sub2 0 k := by
  rw [sub2, h]

theorem sub2_op {c : Char} {k : Text} (h : isLo c = false) : sub2 0 (c :: k) = c :: sub2 0 k := sub2_none (m2_none h)

theorem sub2_skip (t k : Text) : sub2 t.length (t ++ k) = sub2 0 k := by
  induction t with
  | nil => rfl
  | cons c t ih => simpa [sub2] using ih

/-- what `m2` needs -/
theorem m2_some {t g : Text} (h : m2 t = some g) : ∃ a b c cs x r, t = a :: b :: c :: '(' :: cs ∧ isLo a = true ∧ isLo b = true ∧
    isLo c = true ∧ upTo cs = some (x, '*' :: '*' :: '2' :: r) := by
  unfold m2 at h; split at h
  · rename_i a b c cs
    split at h
    · rename_i hl; simp only [Bool.and_eq_true] at hl
      split at h
      · rename_i hu; exact ⟨a, b, c, cs, _, _, rfl, hl.1.1, hl.1.2, hl.2, hu⟩
      · cases h
    · cases h
  · cases h

theorem m2_none2 {a b : Char} {k : Text} (h : isLo b = false) : m2 (a :: b :: k) = none := by
  cases hm : m2 (a :: b :: k) with
  | none => rfl
  | some g =>
    obtain ⟨_, _, _, _, _, _, ht, _, hb, _⟩ := m2_some hm
    cases ht; rw [h] at hb; cases hb

theorem m2_word {w k : Text} (hw : ∀ c ∈ w, isW c = true) (hne : w ≠ []) (hk : Sep k) : m2 (w ++ k) = none := by
  cases h : m2 (w ++ k) with
  | none => rfl
  | some g =>
    obtain ⟨a, b, c, cs, x, r, ht, ha, hb, hc, _⟩ := m2_some h
    have hW := fun c h => @isW_of_isLo c h
    have hop : isW '(' = false := by decide
    match w, hne with
    | [_], _ =>
      simp only [List.cons_append, List.nil_append, List.cons.injEq] at ht
      obtain ⟨_, rfl⟩ := ht
      have := (hk _ _ rfl).1; rw [hW b hb] at this; cases this
    | [_, _], _ =>
      simp only [List.cons_append, List.nil_append, List.cons.injEq] at ht
      obtain ⟨_, _, rfl⟩ := ht
      have := (hk _ _ rfl).1; rw [hW c hc] at this; cases this
    | [_, _, _], _ =>
      simp only [List.cons_append, List.nil_append, List.cons.injEq] at ht
      obtain ⟨_, _, _, rfl⟩ := ht
      exact ((hk _ _ rfl).2.1 rfl).elim
    | _ :: _ :: _ :: d :: w', _ =>
      simp only [List.cons_append, List.cons.injEq] at ht
      obtain ⟨_, _, _, rfl, _⟩ := ht
      have := hw '(' (by simp)
      rw [hop] at this; cases this

theorem sub2_word {w k : Text} (hw : ∀ c ∈ w, isW c = true) (hk : Sep k) : sub2 0 (w ++ k) = w ++ sub2 0 k := by
  induction w with
  | nil => rfl
  | cons c w ih =>
    have := m2_word hw (by simp) hk
    rw [List.cons_append] at this ⊢
    rw [sub2_none this, ih (fun c h => hw c (by simp [h]))]
    rfl

theorem upTo_append {t k : Text} (h : ')' ∉ t) : upTo (t ++ k) = (upTo k).map fun p => (t ++ p.1, p.2) := by
  induction t with
  | nil => cases hu : upTo k <;> simp [hu]
  | cons c t ih =>
    have hc : c ≠ ')' := by rintro rfl; simp at h
    rw [List.cons_append, upTo, if_neg hc, ih (by simp_all)]
    cases upTo k <;> rfl

/-- the text after the first `)` does not begin with `**` -/
def NotPow (k : Text) : Prop := ∀ x r, upTo k = some (x, r) → ∀ u, r ≠ '*' :: '*' :: u

theorem notPow_append {t k : Text} (h : ')' ∉ t) (hk : NotPow k) : NotPow (t ++ k) := by
  intro x r hx
  rw [upTo_append h] at hx
  cases hu : upTo k with
  | none => simp [hu] at hx
  | some p =>
    simp only [hu, Option.map_some, Option.some.injEq] at hx
    cases hx; exact hk _ _ hu

theorem notPow_close {k : Text} (h : ∀ u, k ≠ '*' :: '*' :: u) : NotPow (')' :: k) := by
  intro x r hx
  simp only [upTo, if_pos, Option.some.injEq] at hx
  cases hx; exact h

theorem notPow_cons {c : Char} {k : Text} (h : c ≠ ')') (hk : NotPow k) : NotPow (c :: k) :=
  notPow_append (t := [c]) (by simpa using h.symm) hk

theorem sep_notPow {k : Text} (h : Sep k) : ∀ u, k ≠ '*' :: '*' :: u := by
  rintro u rfl; exact (h _ _ rfl).2.2 rfl u rfl

theorem not_mem_of_isW {w : Text} (hw : ∀ c ∈ w, isW c = true) : ')' ∉ w := fun h => isW_ne (hw _ h) (by decide) rfl

/-- in an argument, no `)` is followed by `**` -/
theorem notPow_text {e : E} (hok : e.ok true) (hwf : e.Wf) {k : Text} (hs : Sep k) (hk : NotPow k) : NotPow (e.text ++ k) := by
  induction e generalizing k with
  | name s => exact notPow_append (not_mem_of_isW hwf.2.1) hk
  | nat n => exact notPow_append (not_mem_of_isW (digits_isW n)) hk
  | call f a ih =>
    have := ih (by simpa [E.ok] using hok) hwf (k := ')' :: k) (sep_cons _ (by decide) (by decide) (by decide))
      (notPow_close (sep_notPow hs))
    simp only [E.text, List.append_assoc, List.cons_append, List.nil_append]
    exact notPow_append (not_mem_of_isW (fun_isW f)) (notPow_cons (by decide) this)
  | at2 a b iha ihb =>
    simp only [E.ok, Bool.and_eq_true] at hok
    have h2 := ihb hok.2 hwf.2 (k := ')' :: k) (sep_cons _ (by decide) (by decide) (by decide)) (notPow_close (sep_notPow hs))
    have h1 := iha hok.1 hwf.1 (k := ',' :: ' ' :: (b.text ++ ')' :: k)) (sep_cons _ (by decide) (by decide) (by decide))
      (notPow_cons (by decide) (notPow_cons (by decide) h2))
    have := notPow_append (t := ['a', 't', 'a', 'n', '2', '(']) (by decide) h1
    simpa [E.text] using this
  | par a ih =>
    have := ih (by simpa [E.ok] using hok) hwf (k := ')' :: k) (sep_cons _ (by decide) (by decide) (by decide))
      (notPow_close (sep_notPow hs))
    simp only [E.text, List.append_assoc, List.cons_append, List.nil_append]
    exact notPow_cons (by decide) this
  | pow a n ih =>
    obtain ⟨rfl, hw | ⟨f, x, hf, rfl, h, hp, hx⟩⟩ := ok_pow hok
    · cases a with
      | name s =>
        have := notPow_append (t := s ++ ['*', '*', '2']) (k := k) (by
          have := not_mem_of_isW hwf.1.2.1; simpa using this) hk
        simpa [E.text, digits_two] using this
      | nat m =>
        have := notPow_append (t := digits m ++ ['*', '*', '2']) (k := k) (by
          have := not_mem_of_isW (digits_isW m); simpa using this) hk
        simpa [E.text, digits_two] using this
      | _ => simp [isWord] at hw
    · cases h
  | mul a b iha ihb =>
    simp only [E.ok, Bool.and_eq_true] at hok
    have h1 := iha hok.1 hwf.1 (sep_mul hwf.2.1 k) (notPow_cons (by decide) (ihb hok.2 hwf.2.1 hs hk))
    simpa [E.text] using h1
  | div a b iha ihb =>
    simp only [E.ok, Bool.and_eq_true] at hok
    have h1 := iha hok.1.1 hwf.1 (k := '/' :: (b.text ++ k)) (sep_cons _ (by decide) (by decide) (by decide))
      (notPow_cons (by decide) (ihb hok.1.2 hwf.2.1 hs hk))
    simpa [E.text] using h1
  | add a b iha ihb =>
    simp only [E.ok, Bool.and_eq_true] at hok
    have h1 := iha hok.1 hwf.1 (k := ' ' :: '+' :: ' ' :: (b.text ++ k)) (sep_cons _ (by decide) (by decide) (by decide))
      (notPow_append (t := [' ', '+', ' ']) (by decide) (ihb hok.2 hwf.2.1 hs hk))
    simpa [E.text] using h1
  | sub a b iha ihb =>
    simp only [E.ok, Bool.and_eq_true] at hok
    have h1 := iha hok.1 hwf.1 (k := ' ' :: '-' :: ' ' :: (b.text ++ k)) (sep_cons _ (by decide) (by decide) (by decide))
      (notPow_append (t := [' ', '-', ' ']) (by decide) (ihb hok.2 hwf.2.1 hs hk))
    simpa [E.text] using h1
  | neg a ih => exact notPow_cons (by decide) (ih (by simpa [E.ok] using hok) hwf.1 hs hk)

theorem parFree_not_mem {e : E} (h : e.parFree) (hwf : e.Wf) : ')' ∉ e.text := by
  induction e with
  | name s => exact not_mem_of_isW hwf.2.1
  | nat n => exact not_mem_of_isW (digits_isW n)
  | pow a n ih =>
    have := ih h hwf.1
    have h2 := not_mem_of_isW (digits_isW n)
    simp [E.text, this, h2]
  | neg a ih => simpa [E.text] using ih h hwf.1
  | _ => simp_all [E.parFree, E.Wf, E.text]

theorem mulR_lvl2 {l r : E} (h : 2 ≤ r.lvl) : mulR l r = .mul l r := by
  cases r <;> simp [E.lvl, mulR] at h ⊢

theorem sq_noop {e : E} (h : e.ok true) (hn : e.noW) (hwf : e.Wf) : e.sq isCall = e := by
  induction e with
  | pow a n ih =>
    obtain ⟨rfl, hw | ⟨f, x, hf, rfl, h, hp, hx⟩⟩ := ok_pow h
    · simp [E.noW, hw] at hn
    · cases h
  | mul a b iha ihb =>
    simp only [E.ok, E.noW, Bool.and_eq_true] at h hn
    rw [E.sq, iha h.1 hn.1 hwf.1, ihb h.2 hn.2 hwf.2.1, mulR_lvl2 hwf.2.2.2]
  | _ => simp_all [E.ok, E.noW, E.sq, E.Wf]

/-- a function name and its argument that is not squared -/
theorem sub2_fun (f : Fun) {k : Text} (h : NotPow k) : sub2 0 (f.text ++ '(' :: k) = f.text ++ '(' :: sub2 0 k := by
  have h3 : ∀ a b c, m2 (a :: b :: c :: '(' :: k) = none := by
    intro a b c
    cases hm : m2 (a :: b :: c :: '(' :: k) with
    | none => rfl
    | some g =>
      obtain ⟨_, _, _, _, x, r, ht, _, _, _, hu⟩ := m2_some hm
      cases ht; exact absurd rfl (h _ _ hu _)
  have hp : m2 ('(' :: k) = none := m2_none (by decide)
  have h1 : ∀ a, m2 (a :: '(' :: k) = none := by
    intro a
    cases hm : m2 (a :: '(' :: k) with
    | none => rfl
    | some g => obtain ⟨_, _, _, _, x, r, ht, _, hb, _⟩ := m2_some hm; cases ht; simp [isLo] at hb
  have h2 : ∀ a b, m2 (a :: b :: '(' :: k) = none := by
    intro a b
    cases hm : m2 (a :: b :: '(' :: k) with
    | none => rfl
    | some g => obtain ⟨_, _, _, _, x, r, ht, _, _, hb, _⟩ := m2_some hm; cases ht; simp [isLo] at hb
  have h4 : ∀ a b c d, d ≠ '(' → m2 (a :: b :: c :: d :: '(' :: k) = none := by
    intro a b c d hd
    cases hm : m2 (a :: b :: c :: d :: '(' :: k) with
    | none => rfl
    | some g => obtain ⟨_, _, _, _, x, r, ht, _⟩ := m2_some hm; cases ht; exact absurd rfl hd
  cases f <;> simp [Fun.text, sub2_none, h1, h2, h3, h4, hp]

theorem sub2_text {i : Bool} {e : E} (hok : e.ok i) (hn : e.noW) (hwf : e.Wf) {k : Text} (hk : Sep k) :
    sub2 0 (e.text ++ k) = (e.sq isCall).text ++ sub2 0 k := by
  induction e generalizing i k with
  | name s => exact sub2_word hwf.2.1 hk
  | nat n => exact sub2_word (digits_isW n) hk
  | call f a ih =>
    have hs : Sep (')' :: k) := sep_cons _ (by decide) (by decide) (by decide)
    have ha : a.ok true := by simpa [E.ok] using hok
    have := ih ha (by simpa [E.noW] using hn) hwf hs
    simp only [E.text, E.sq, List.append_assoc, List.cons_append, List.nil_append]
    rw [sub2_fun f (notPow_text ha hwf hs (notPow_close (sep_notPow hk))), this, sub2_op (by decide)]
  | at2 a b iha ihb =>
    simp only [E.ok, E.noW, Bool.and_eq_true] at hok hn
    have h2 := ihb hok.2 hn.2 hwf.2 (k := ')' :: k) (sep_cons _ (by decide) (by decide) (by decide))
    have h1 := iha hok.1 hn.1 hwf.1 (k := ',' :: ' ' :: (b.text ++ ')' :: k)) (sep_cons _ (by decide) (by decide) (by decide))
    simp only [E.text, E.sq, List.append_assoc, List.cons_append, List.nil_append]
    rw [sub2_none (by rfl), sub2_none (by rfl), sub2_none (by simp [m2, isLo]), sub2_none (m2_none2 (by decide)), sub2_op (by decide),
      sub2_op (by decide), h1, sub2_op (by decide), sub2_op (by decide), h2, sub2_op (by decide)]
  | par a ih =>
    have := ih (by simpa [E.ok] using hok) (by simpa [E.noW] using hn) hwf (k := ')' :: k)
      (sep_cons _ (by decide) (by decide) (by decide))
    simp only [E.text, E.sq, List.append_assoc, List.cons_append, List.nil_append]
    rw [sub2_op (by decide), this, sub2_op (by decide)]
  | pow a n ih =>
    obtain ⟨rfl, hw | ⟨f, x, hf, rfl, rfl, hp, hx⟩⟩ := ok_pow hok
    · simp [E.noW, hw] at hn
    · have hxn : x.noW := by simp only [E.noW, Bool.and_eq_true] at hn; exact hn.1
      have hxw : x.Wf := hwf.1
      obtain ⟨c, t, hc, _⟩ := text_head hxw
      have hu : upTo (x.text ++ ')' :: '*' :: '*' :: '2' :: k) = some (x.text, '*' :: '*' :: '2' :: k) := by
        rw [upTo_append (parFree_not_mem hp hxw)]; simp [upTo]
      have key : sub2 0 ((E.call f x).text ++ '*' :: '*' :: '2' :: k) =
          (E.call f x).text ++ '*' :: (E.call f x).text ++ sub2 0 k := by
        have hm : m2 ((E.call f x).text ++ '*' :: '*' :: '2' :: k) = some (E.call f x).text := by
          rw [hc] at hu
          rcases hf with rfl | rfl <;> simp_all [E.text, Fun.text, m2, isLo]
        have hsk := sub2_skip ((E.call f x).text ++ ['*', '*', '2']) k
        obtain ⟨c', t', hc'⟩ : ∃ c' t', (E.call f x).text = c' :: t' := by
          rcases hf with rfl | rfl <;> exact ⟨_, _, rfl⟩
        rw [hc'] at hm hsk ⊢
        simp only [List.cons_append, List.append_assoc, List.nil_append, List.length_cons, List.length_append, List.length_nil,
          sub2] at hm hsk ⊢
        rw [hm]
        simp only [List.cons_append, List.length_cons]
        rw [hsk]
      simp only [E.sq, sq_noop hx hxn hxw, isCall, Bool.true_and, beq_self_eq_true, if_true]
      rw [E.text, E.text.eq_7, digits_two]
      simpa using key
  | mul a b iha ihb =>
    simp only [E.ok, E.noW, Bool.and_eq_true] at hok hn
    have h2 := ihb hok.2 hn.2 hwf.2.1 hk
    have h1 := iha hok.1 hn.1 hwf.1 (sep_mul hwf.2.1 k)
    simp only [E.text, E.sq, mulR_text, List.append_assoc, List.cons_append]
    rw [h1, sub2_op (by decide), h2]
  | div a b iha ihb =>
    simp only [E.ok, E.noW, Bool.and_eq_true] at hok hn
    have h2 := ihb hok.1.2 hn.2 hwf.2.1 hk
    have h1 := iha hok.1.1 hn.1 hwf.1 (k := '/' :: (b.text ++ k)) (sep_cons _ (by decide) (by decide) (by decide))
    simp only [E.text, E.sq, List.append_assoc, List.cons_append]
    rw [h1, sub2_op (by decide), h2]
  | add a b iha ihb =>
    simp only [E.ok, E.noW, Bool.and_eq_true] at hok hn
    have h2 := ihb hok.2 hn.2 hwf.2.1 hk
    have h1 := iha hok.1 hn.1 hwf.1 (k := ' ' :: '+' :: ' ' :: (b.text ++ k)) (sep_cons _ (by decide) (by decide) (by decide))
    simp only [E.text, E.sq, List.append_assoc, List.cons_append]
    rw [h1, sub2_op (by decide), sub2_op (by decide), sub2_op (by decide), h2]
  | sub a b iha ihb =>
    simp only [E.ok, E.noW, Bool.and_eq_true] at hok hn
    have h2 := ihb hok.2 hn.2 hwf.2.1 hk
    have h1 := iha hok.1 hn.1 hwf.1 (k := ' ' :: '-' :: ' ' :: (b.text ++ k)) (sep_cons _ (by decide) (by decide) (by decide))
    simp only [E.text, E.sq, List.append_assoc, List.cons_append]
    rw [h1, sub2_op (by decide), sub2_op (by decide), sub2_op (by decide), h2]
  | neg a ih =>
    have := ih (by simpa [E.ok] using hok) (by simpa [E.noW] using hn) hwf.1 hk
    simp only [E.text, E.sq, List.cons_append]
    rw [sub2_op (by decide), this]

/-! ## C46 -/

/-- every division has an operand that is not of type `int` -/
def E.noIntDiv : E → Bool
  | .name _ | .nat _ => true
  | .call _ a | .par a | .pow a _ | .neg a => a.noIntDiv
  | .div a b => a.noIntDiv && b.noIntDiv && !(a.isInt && b.isInt)
  | .mul a b | .add a b | .sub a b | .at2 a b => a.noIntDiv && b.noIntDiv

/-- no power -/
def E.powFree : E → Bool
  | .name _ | .nat _ => true
  | .call _ a | .par a | .neg a => a.powFree
  | .pow _ _ => false
  | .div a b | .mul a b | .add a b | .sub a b | .at2 a b => a.powFree && b.powFree

theorem cval_of_powFree (env) {e : E} (h : e.powFree) (hd : e.noIntDiv) : e.cval env = some (e.val env) := by
  induction e with
  | name s => rfl
  | nat n => rfl
  | pow a n => simp [E.powFree] at h
  | div a b iha ihb =>
    simp only [E.powFree, E.noIntDiv, Bool.and_eq_true, Bool.not_eq_true'] at h hd
    simp [E.cval, iha h.1 hd.1.1, ihb h.2 hd.1.2, E.val, hd.2]
  | _ => simp_all [E.powFree, E.noIntDiv, E.cval, E.val]

/-- The expression that the C++ line contains. -/
def E.cpp (e : E) : E := (e.sq isWord).sq isCall

theorem mulR_powFree {l r : E} (hl : l.powFree) (hr : r.powFree) : (mulR l r).powFree := by
  cases r <;> simp_all [mulR, E.powFree]
theorem mulR_noIntDiv {l r : E} (hl : l.noIntDiv) (hr : r.noIntDiv) : (mulR l r).noIntDiv := by
  cases r <;> simp_all [mulR, E.noIntDiv]
theorem mulR_isInt (l r : E) : (mulR l r).isInt = (l.isInt && r.isInt) := by
  cases r <;> simp [mulR, E.isInt, Bool.and_assoc]

theorem cpp_powFree {i : Bool} {e : E} (hok : e.ok i) (hn : e.noW) (hwf : e.Wf) : (e.sq isCall).powFree := by
  induction e generalizing i with
  | pow a n ih =>
    obtain ⟨rfl, hw | ⟨f, x, hf, rfl, rfl, hp, hx⟩⟩ := ok_pow hok
    · simp [E.noW, hw] at hn
    · have := ih (i := true) (by simpa [E.ok] using hx) (by simp only [E.noW, Bool.and_eq_true] at hn ⊢; exact hn.1) hwf.1
      simp only [E.sq, E.powFree] at this
      simp [E.sq, isCall, E.powFree, this]
  | mul a b iha ihb =>
    simp only [E.ok, E.noW, Bool.and_eq_true] at hok hn
    exact mulR_powFree (iha hok.1 hn.1 hwf.1) (ihb hok.2 hn.2 hwf.2.1)
  | div a b iha ihb =>
    simp only [E.ok, E.noW, Bool.and_eq_true] at hok hn
    simp [E.sq, E.powFree, iha hok.1.1 hn.1 hwf.1, ihb hok.1.2 hn.2 hwf.2.1]
  | add a b iha ihb =>
    simp only [E.ok, E.noW, Bool.and_eq_true] at hok hn
    simp [E.sq, E.powFree, iha hok.1 hn.1 hwf.1, ihb hok.2 hn.2 hwf.2.1]
  | sub a b iha ihb =>
    simp only [E.ok, E.noW, Bool.and_eq_true] at hok hn
    simp [E.sq, E.powFree, iha hok.1 hn.1 hwf.1, ihb hok.2 hn.2 hwf.2.1]
  | at2 a b iha ihb =>
    simp only [E.ok, E.noW, Bool.and_eq_true] at hok hn
    simp [E.sq, E.powFree, iha hok.1 hn.1 hwf.1, ihb hok.2 hn.2 hwf.2]
  | call f a ih => exact ih (i := true) (by simpa [E.ok] using hok) hn hwf
  | par a ih => exact ih (by simpa [E.ok] using hok) hn hwf
  | neg a ih => exact ih (by simpa [E.ok] using hok) hn hwf.1
  | _ => rfl

theorem sq_isInt (p : E → Bool) (e : E) : (e.sq p).isInt = e.isInt := by
  induction e with
  | pow a n ih => simp only [E.sq]; split <;> simp [E.isInt, ih]
  | mul a b iha ihb => simp [E.sq, mulR_isInt, iha, ihb, E.isInt]
  | _ => simp_all [E.sq, E.isInt]

theorem sq_noIntDiv (p : E → Bool) {e : E} (h : e.noIntDiv) : (e.sq p).noIntDiv := by
  induction e with
  | pow a n ih =>
    have := ih (by simpa [E.noIntDiv] using h)
    simp only [E.sq]; split <;> simp [E.noIntDiv, this]
  | mul a b iha ihb =>
    simp only [E.noIntDiv, Bool.and_eq_true] at h
    exact mulR_noIntDiv (iha h.1) (ihb h.2)
  | div a b iha ihb =>
    simp only [E.noIntDiv, Bool.and_eq_true, Bool.not_eq_true'] at h
    simp [E.sq, E.noIntDiv, iha h.1.1, ihb h.1.2, sq_isInt, h.2]
  | _ => simp_all [E.noIntDiv, E.sq]

theorem hasPow_tail {c : Char} {k : Text} (h : hasPow (c :: k) = false) : hasPow k = false := by
  rw [hasPow.eq_def] at h; split at h
  · cases h
  · rename_i h'; cases h'; exact h
  · rename_i h'; cases h'

theorem hasPow_stars (t k : Text) : hasPow (t ++ '*' :: '*' :: k) = true := by
  induction t with
  | nil => rfl
  | cons c t ih =>
    rw [List.cons_append, hasPow.eq_def]; split
    · rfl
    · rename_i h; injection h with _ h; rw [← h]; exact ih
    · rename_i h; cases h

theorem sub1_noPow {t : Text} (h : hasPow t = false) (run : Text) : sub1 run t = run ++ t := by
  induction t generalizing run with
  | nil => simp [sub1]
  | cons c t ih =>
    have hn : ∀ u, c :: t ≠ '*' :: '*' :: '2' :: u := by
      rintro u hu; rw [hu] at h; simp [hasPow] at h
    rw [sub1_cons hn, ih (hasPow_tail h), ih (hasPow_tail h)]
    split <;> simp

theorem upTo_eq {t x r : Text} (h : upTo t = some (x, r)) : t = x ++ ')' :: r := by
  induction t generalizing x with
  | nil => simp [upTo] at h
  | cons c t ih =>
    rw [upTo] at h; split at h
    · rename_i hc; subst hc; cases h; rfl
    · split at h
      · cases h
      · rename_i hu; cases h; rw [ih hu]; rfl

theorem sub2_noPow {t : Text} (h : hasPow t = false) : sub2 0 t = t := by
  induction t with
  | nil => rfl
  | cons c t ih =>
    have : m2 (c :: t) = none := by
      cases hm : m2 (c :: t) with
      | none => rfl
      | some g =>
        obtain ⟨a, b, d, cs, x, r, ht, _, _, _, hu⟩ := m2_some hm
        rw [ht, upTo_eq hu] at h
        have := hasPow_stars (a :: b :: d :: '(' :: (x ++ [')'])) ('2' :: r)
        simp only [List.cons_append, List.append_assoc, List.nil_append] at this
        rw [this] at h; cases h
    rw [sub2_none this, ih (hasPow_tail h)]

theorem cppLine_eq (t : Text) : cppLine t = sub2 0 (sub1 [] t) := by
  unfold cppLine; split
  · rfl
  · rename_i h; rw [Bool.not_eq_true] at h
    rw [sub1_noPow h, List.nil_append, sub2_noPow h]

/-- **C46 (partial).** For every expression in the fragment `E.ok` (any size), the line that `cpp_output.line` writes for its text is
the text of an expression without `**` that has, for all values of the names, the same value, and the C++ value of that expression is
the python value, provided no division has two integer operands. Missing: all the other expressions, for which the theorems below
show that the claim is false. -/
theorem C46_line_partial (e : E) (hok : e.ok false) (hwf : e.Wf) (hd : e.noIntDiv) :
    ∃ e' : E, cppLine e.text = e'.text ∧ e'.Wf ∧ e'.powFree ∧ (∀ env, e'.val env = e.val env) ∧
      ∀ env, e'.cval env = some (e.val env) := by
  have h1 := sq_ok hok
  have hw1 := sq_wf isWord hok hwf
  have hw2 := sq_wf isCall h1.1 hw1
  have hv : ∀ env, (e.cpp).val env = e.val env := fun env => by rw [E.cpp, sq_val, sq_val]
  have hpf : e.cpp.powFree := cpp_powFree h1.1 h1.2 hw1
  have ht : sub2 0 (sub1 [] e.text) = e.cpp.text := by
    have e1 := sub1_text hok hwf (k := []) (.inl sep_nil)
    have e2 := sub2_text h1.1 h1.2 hw1 (k := []) sep_nil
    simp only [List.append_nil, sub1, sub2] at e1 e2
    rw [e1, e2]; rfl
  refine ⟨e.cpp, by rw [cppLine_eq, ht], hw2, hpf, hv, fun env => ?_⟩
  rw [cval_of_powFree env hpf (sq_noIntDiv _ (sq_noIntDiv _ hd)), hv]

/-- A line without `**` comes out as it is. -/
theorem C46_unchanged (t : Text) (h : ∀ x y, t ≠ x ++ ['*', '*'] ++ y) : cppLine t = t := by
  have : hasPow t = false := by
    induction t with
    | nil => rfl
    | cons c t ih =>
      rw [hasPow.eq_def]; split
      · rename_i cs h'; exact absurd h' (h [] cs)
      · rename_i h'; cases h'
        exact ih fun x y hxy => h (c :: x) y (by rw [hxy]; rfl)
      · rfl
  simp [cppLine, this]

/-- sin of the sum of two squares, over a product, plus a negated square: `(a*x**2 + sin(y**2 + z)**2*b)/(c*x) - z**2`. -/
def demoE : E := .sub (.div (.par (.add (.mul (.name ['a']) (.pow (.name ['x']) 2))
    (.mul (.pow (.call .sin (.add (.pow (.name ['y']) 2) (.name ['z']))) 2) (.name ['b']))))
  (.par (.mul (.name ['c']) (.name ['x'])))) (.pow (.name ['z']) 2)

/-- the hypotheses of `C46_line_partial` are met, and what the line is -/
example : demoE.ok false ∧ demoE.Wf ∧ demoE.noIntDiv ∧
    String.ofList demoE.text = "(a*x**2 + sin(y**2 + z)**2*b)/(c*x) - z**2" ∧
    String.ofList (cppLine demoE.text) = "(a*x*x + sin(y*y + z)*sin(y*y + z)*b)/(c*x) - z*z" := by
  refine ⟨rfl, ?_, rfl, by decide +kernel, by decide +kernel⟩
  simp [demoE, E.Wf, E.lvl, isW]

def nm (s : String) : E := .name s.toList

/-- **C46 violated.** A square in a denominator: `y/x**2` becomes `y/x*x`, which is C++ for another value. -/
theorem C46_denominator_violation : ∃ e e' : E, e.Wf ∧ e'.Wf ∧ e.text = "y/x**2".toList ∧ cppLine e.text = e'.text ∧
    ∃ env x, e'.cval env = some x ∧ x ≠ e.val env := by
  refine ⟨.div (nm "y") (.pow (nm "x") 2), .mul (.div (nm "y") (nm "x")) (nm "x"), ?_, ?_, by decide +kernel, by decide +kernel,
    fun t => if t = ['y'] then 1 else 2, 1, ?_, ?_⟩
  · simp [nm, E.Wf, E.lvl, isW]
  · simp [nm, E.Wf, E.lvl, isW]
  · simp [E.cval, E.isInt, nm]
  · simp [E.val, nm]; norm_num

/-- **C46 violated.** The square of an arc cosine is a product of the arc cosine and the cosine. -/
theorem C46_acos_violation : ∃ e e' : E, e.Wf ∧ e'.Wf ∧ e.text = "acos(x)**2".toList ∧ cppLine e.text = e'.text ∧
    e'.text = "acos(x)*cos(x)".toList ∧ ∃ env x, e'.cval env = some x ∧ x ≠ e.val env := by
  refine ⟨.pow (.call .acos (nm "x")) 2, .mul (.call .acos (nm "x")) (.call .cos (nm "x")), ?_, ?_, by decide +kernel,
    by decide +kernel, by decide +kernel, fun _ => 0, Real.pi / 2, ?_, ?_⟩
  · simp [nm, E.Wf, E.lvl, isW]
  · simp [nm, E.Wf, E.lvl, isW]
  · simp [E.cval, nm, Fun.eval]
  · have h := Real.pi_gt_three
    simp only [E.val, nm, Fun.eval, Real.arccos_zero]
    intro h'
    nlinarith

/-- no expression is written so: more `(` than `)` -/
theorem text_balanced (e : E) (h : e.Wf) : e.text.count '(' = e.text.count ')' := by
  have hw : ∀ w : Text, (∀ c ∈ w, isW c = true) → w.count '(' = 0 ∧ w.count ')' = 0 := by
    intro w hw
    exact ⟨List.count_eq_zero.2 fun h => isW_ne (hw _ h) (by decide) rfl,
      List.count_eq_zero.2 fun h => isW_ne (hw _ h) (by decide) rfl⟩
  induction e with
  | name s => have := hw s h.2.1; simp [E.text, this]
  | nat n => have := hw _ (digits_isW n); simp [E.text, this]
  | call f a ih => have := hw _ (fun_isW f); simp [E.text, this, ih h]
  | at2 a b iha ihb => simp [E.text, iha h.1, ihb h.2]; omega
  | par a ih => simp [E.text, ih h]
  | pow a n ih => have := hw _ (digits_isW n); simp [E.text, ih h.1, this]
  | neg a ih => simp [E.text, ih h.1]
  | mul a b iha ihb => simp [E.text, iha h.1, ihb h.2.1]
  | div a b iha ihb => simp [E.text, iha h.1, ihb h.2.1]
  | add a b iha ihb => simp [E.text, iha h.1, ihb h.2.1]
  | sub a b iha ihb => simp [E.text, iha h.1, ihb h.2.1]

/-- **C46 violated.** The square of a sine under a root: the line is no expression at all. -/
theorem C46_nested_violation : ∃ e : E, e.Wf ∧ e.text = "sqrt(1 - sin(x)**2)".toList ∧
    cppLine e.text = "sqrt(1 - sin(x)*qrt(1 - sin(x))".toList ∧ ¬ ∃ e' : E, e'.Wf ∧ e'.text = cppLine e.text := by
  have ht : (E.call .sqrt (.sub (.nat 1) (.pow (.call .sin (nm "x")) 2))).text = "sqrt(1 - sin(x)**2)".toList := by decide +kernel
  refine ⟨.call .sqrt (.sub (.nat 1) (.pow (.call .sin (nm "x")) 2)), ?_, ht, ?_, ?_⟩
  · simp [nm, E.Wf, E.lvl, isW]
  · rw [ht]; decide +kernel
  · rintro ⟨e', hw, he⟩
    have := text_balanced e' hw
    rw [he, ht] at this
    revert this; decide +kernel

/-- **C46 violated.** Cubes, squares of parentheses and of `atan2` keep the `**` that C++ does not have; `x**20` becomes `x*x0`. -/
theorem C46_power_violation :
    cppLine "x**3".toList = "x**3".toList ∧ cppLine "(a + b)**2".toList = "(a + b)**2".toList ∧
    cppLine "sin(a*(b + c))**2".toList = "sin(a*(b + c))**2".toList ∧
    cppLine "x**20".toList = "x*x0".toList := by
  decide +kernel

/-- **C46 violated.** `1/2` is not changed, and is `0` in C++. -/
theorem C46_int_division_violation : ∃ e : E, e.ok false ∧ e.Wf ∧ e.text = "x + 1/2".toList ∧ cppLine e.text = e.text ∧
    ∃ env x, e.cval env = some x ∧ x ≠ e.val env := by
  refine ⟨.add (nm "x") (.div (.nat 1) (.nat 2)), rfl, ?_, by decide +kernel, by decide +kernel, fun _ => 0, 0, ?_, ?_⟩
  · simp [nm, E.Wf, E.lvl, isW]
  · simp [E.cval, nm, E.isInt, trunc]; norm_num
  · simp [E.val, nm]

end Verif.Out
