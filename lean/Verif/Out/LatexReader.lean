import Verif.Out.LatexSpec
/-!
# Lemmas about the reader of LaTeX
-/
namespace Verif.Out.Tex
open Verif.Out

theorem feed_append (s : St) (a b : Text) : feed s (a ++ b) = (feed s a).bind (feed · b) := by
  induction a generalizing s with
  | nil => rfl
  | cons c a ih =>
    simp only [List.cons_append, feed]
    cases s.step c with
    | none => rfl
    | some s' => exact ih s'

theorem feed_trans {s s' : St} {a b : Text} {r : Option St} (h : feed s a = some s') (h' : feed s' b = r) : feed s (a ++ b) = r := by
  rw [feed_append, h]; exact h'

/-! ## What was seen before does not matter -/

def Core.pre (o : List Item) (k : Core) : Core := { k with out := o ++ k.out }
def St.pre (o : List Item) (s : St) : St := { s with core := s.core.pre o }

theorem tok_pre (o : List Item) (k : Core) (t : Tok) : (k.pre o).tok t = (k.tok t).map (Core.pre o) := by
  unfold Core.tok Core.tokN Core.pre Core.note
  dsimp only
  repeat' split
  all_goals simp_all [List.append_assoc]

theorem plainChar_pre (o : List Item) (b : Bool) (k : Core) (c : Char) : plainChar b (k.pre o) c = (plainChar b k c).map (St.pre o) := by
  unfold plainChar
  dsimp only
  split
  · split
    · rw [tok_pre]; cases k.tok .par <;> rfl
    · rfl
  · split
    · rfl
    · split
      · rfl
      · rw [tok_pre]; generalize k.tok _ = r; cases r <;> rfl

theorem step_pre (o : List Item) (s : St) (c : Char) : (s.pre o).step c = (s.step c).map (St.pre o) := by
  unfold St.step
  have hm : (s.pre o).mode = s.mode := rfl
  have hc : (s.pre o).core = s.core.pre o := rfl
  have hst : (s.core.pre o).stack = s.core.stack := rfl
  rw [hm, hc]
  cases s.mode with
  | txt b => exact plainChar_pre o b _ c
  | esc =>
    dsimp only
    split
    · rfl
    · rw [tok_pre]; generalize s.core.tok _ = r; cases r <;> rfl
  | name acc =>
    dsimp only
    split
    · rfl
    split
    · split <;> rfl
    split
    · split <;> rfl
    rw [tok_pre]
    generalize s.core.tok _ = r
    cases r with
    | none => rfl
    | some k => exact plainChar_pre o false k c
  | env f acc =>
    dsimp only
    split
    · split
      · rw [tok_pre]; generalize s.core.tok _ = r; cases r <;> rfl
      split
      · rw [hst]; split <;> rfl
      · rw [tok_pre]; generalize s.core.tok _ = r; cases r <;> rfl
    · rfl
  | verb k =>
    dsimp only
    split
    · split <;> rfl
    · split <;> rfl

theorem feed_pre (o : List Item) (s : St) (t : Text) : feed (s.pre o) t = (feed s t).map (St.pre o) := by
  induction t generalizing s with
  | nil => rfl
  | cons c t ih =>
    simp only [feed, step_pre]
    cases s.step c with
    | none => rfl
    | some s' => exact ih s'

/-- A text read with an empty record, read after `o` was seen. -/
theorem feed_out {m m' : Mode} {st st' : List Frame} {c c' : List Tok} {o' : List Item} {t : Text}
    (h : feed ⟨m, ⟨st, c, []⟩⟩ t = some ⟨m', ⟨st', c', o'⟩⟩) (o : List Item) :
    feed ⟨m, ⟨st, c, o⟩⟩ t = some ⟨m', ⟨st', c', o ++ o'⟩⟩ := by
  have := feed_pre o ⟨m, ⟨st, c, []⟩⟩ t
  rw [h] at this
  simpa [St.pre, Core.pre] using this

/-! ## Parts of formulas -/

/-- a frame that a part of a formula may open -/
def Inner (f : Frame) : Prop := f = .brace ∨ ∃ e, f = .env e ∧ e ≠ tAlign ∧ e ≠ tDmath ∧ e ≠ tEnum

/-- a place where a part of a formula may stand -/
def Place (st : List Frame) : Prop := inMath st = true ∧ ∀ f st', st = f :: st' → f ≠ .tabWait ∧ ∀ n, f ≠ .tabArg n

theorem inMath_append (s st : List Frame) (h : inMath st = true) : inMath (s ++ st) = true := by
  simp only [inMath, List.any_append, Bool.or_eq_true] at *; exact .inr h

theorem inner_rec {s : List Frame} (h : ∀ f ∈ s, Inner f) : recording s = false := by
  simp only [recording, List.any_eq_false]
  intro f hf
  rcases h f hf with rfl | ⟨e, rfl, h1, h2, h3⟩ <;> simp [Frame.isRec, *]

theorem recording_append {s st : List Frame} (h : ∀ f ∈ s, Inner f) : recording (s ++ st) = recording st := by
  have := inner_rec h
  simp only [recording, List.any_append] at *
  rw [this, Bool.false_or]

theorem tok_eq (k : Core) (t : Tok) (h : ∀ f st', k.stack = f :: st' → f ≠ .tabWait ∧ ∀ n, f ≠ .tabArg n) : k.tok t = k.tokN t := by
  unfold Core.tok
  split
  · next hs => exact absurd rfl (h _ _ hs).1
  · next n st hs => exact absurd rfl ((h _ _ hs).2 n)
  · rfl

/-- A token read at a hole has the same effect at every other place in mathematics. -/
theorem tok_hole {s : List Frame} (hs : ∀ f ∈ s, Inner f) {c : List Tok} {o : List Item} {t : Tok} {k' : Core}
    (h : (⟨s ++ [.hole], c, o⟩ : Core).tok t = some k') :
    ∃ s', (∀ f ∈ s', Inner f) ∧ k' = ⟨s' ++ [.hole], c ++ [t], o⟩ ∧
      ∀ st c' o', Place st → (⟨s ++ st, c', o'⟩ : Core).tok t = some ⟨s' ++ st, if recording st then c' ++ [t] else c', o'⟩ := by
  have hm : inMath (s ++ [Frame.hole]) = true := inMath_append _ _ rfl
  have hr : recording (s ++ [Frame.hole]) = true := by rw [recording_append hs]; rfl
  have hr' : ∀ st, recording (s ++ st) = recording st := fun st => recording_append hs
  have hp : ∀ st, Place st → ∀ f st', s ++ st = f :: st' → f ≠ .tabWait ∧ ∀ n, f ≠ .tabArg n := by
    intro st hst f st' he
    cases s with
    | nil => exact hst.2 f st' he
    | cons g s =>
      cases he
      rcases hs f (by simp) with rfl | ⟨e, rfl, _⟩ <;> exact ⟨by simp, by simp⟩
  rw [tok_eq _ _ (hp [.hole] ⟨rfl, fun f st' he => by cases he; simp⟩)] at h
  have key : ∃ s', (∀ f ∈ s', Inner f) ∧ k' = ⟨s' ++ [.hole], c ++ [t], o⟩ ∧
      ∀ st c' o', Place st → (⟨s ++ st, c', o'⟩ : Core).tokN t = some ⟨s' ++ st, if recording st then c' ++ [t] else c', o'⟩ := by
    have hM : ∀ st, Place st → inMath (s ++ st) = true := fun st h => inMath_append _ _ h.1
    have push : ∀ g : Frame, Inner g → ∀ f ∈ g :: s, Inner f := by
      intro g hg f hf
      rcases List.mem_cons.1 hf with rfl | hf
      · exact hg
      · exact hs f hf
    cases t with
    | beg e =>
      unfold Core.tokN Core.note at h
      dsimp only at h
      simp only [hm, hr, if_true] at h
      split at h
      · cases h
      next h1 =>
      split at h
      · cases h
      next h2 =>
      rw [not_or] at h2
      have he : ∀ st c' o', Place st → (⟨s ++ st, c', o'⟩ : Core).tokN (.beg e) =
          if e = tEnum then none else some ⟨.env e :: s ++ st, if recording st then c' ++ [.beg e] else c', o'⟩ := by
        intro st c' o' hst
        unfold Core.tokN Core.note
        dsimp only
        simp only [hM st hst, hr', h1, h2.1, h2.2, or_self, if_false, if_true]
        split
        · next h => subst h; rfl
        · rfl
      have h3 : e ≠ tEnum := by
        rintro rfl
        simp [show tEnum ≠ tMatrix by decide] at h
      have hk : k' = ⟨.env e :: s ++ [.hole], c ++ [.beg e], o⟩ := by
        simp only [h3, if_false] at h
        split at h <;> (cases h; rfl)
      refine ⟨.env e :: s, push _ (.inr ⟨e, rfl, h2.1, h2.2, h3⟩), hk, fun st c' o' hst => ?_⟩
      rw [he st c' o' hst, if_neg h3]
    | fin e =>
      cases s with
      | nil => cases h
      | cons f s =>
        rcases hs f (by simp) with rfl | ⟨e', rfl, h1, h2, h3⟩
        · cases h
        · unfold Core.tokN Core.note at h
          dsimp only at h
          simp only [List.cons_append] at h
          split at h
          swap
          · cases h
          next he =>
          subst he
          simp only [h1, h2, h3, or_self, if_false] at h
          rw [List.cons_append] at hr
          simp only [hr, if_true] at h
          refine ⟨s, fun f hf => hs f (by simp [hf]), by cases h; rfl, fun st c' o' hst => ?_⟩
          have := hr' st
          rw [List.cons_append] at this
          unfold Core.tokN Core.note
          simp only [List.cons_append, h1, h2, h3, or_self, if_false, if_true, this]
    | cmd n =>
      have hb : n ≠ tDispO ∧ n ≠ tDispC ∧ n ≠ tItem ∧ n ≠ tHline ∧ n ≠ tSubsection ∧ (n = tBr → s ≠ []) := by
        refine ⟨?_, ?_, ?_, ?_, ?_, ?_⟩
        · rintro rfl; unfold Core.tokN at h; simp [hm] at h
        · rintro rfl; unfold Core.tokN at h
          simp only [show tDispC ≠ tDispO by decide, if_false, if_true] at h
          cases s with
          | nil => cases h
          | cons f s => rcases hs f (by simp) with rfl | ⟨e', rfl, _⟩ <;> cases h
        · rintro rfl; unfold Core.tokN at h
          simp only [show tItem ≠ tDispO by decide, show tItem ≠ tDispC by decide, if_false, if_true] at h
          cases s with
          | nil => cases h
          | cons f s =>
            rcases hs f (by simp) with rfl | ⟨e', rfl, _, _, h3⟩
            · cases h
            · simp [h3] at h
        · rintro rfl; unfold Core.tokN at h
          simp only [show tHline ≠ tDispO by decide, show tHline ≠ tDispC by decide, show tHline ≠ tItem by decide, if_false, if_true] at h
          cases s with
          | nil => cases h
          | cons f s => rcases hs f (by simp) with rfl | ⟨e', rfl, _⟩ <;> cases h
        · rintro rfl; unfold Core.tokN at h
          simp [show tSubsection ≠ tDispO by decide, show tSubsection ≠ tDispC by decide, show tSubsection ≠ tItem by decide,
            show tSubsection ≠ tHline by decide, show tSubsection ≠ tBr by decide] at h
        · rintro rfl rfl; cases h
      obtain ⟨b1, b2, b3, b4, b5, b6⟩ := hb
      have he : ∀ st c' o', (st = [.hole] ∨ Place st) → (⟨s ++ st, c', o'⟩ : Core).tokN (.cmd n) =
          some ⟨s ++ st, if recording st then c' ++ [.cmd n] else c', o'⟩ := by
        intro st c' o' hst
        unfold Core.tokN Core.note
        simp only [b1, b2, b3, b4, b5, if_false, hr']
        split
        · next hn =>
          cases s with
          | nil => exact absurd rfl (b6 hn)
          | cons f s =>
            rcases hs f (by simp) with rfl | ⟨e', rfl, h1, _, h3⟩
            · rfl
            · simp only [List.cons_append, h1, if_false]
        · rfl
      refine ⟨s, hs, ?_, fun st c' o' hst => he st c' o' (.inr hst)⟩
      have := he [.hole] c o (.inl rfl)
      rw [this] at h
      cases h
      rfl
    | opn =>
      refine ⟨.brace :: s, push _ (.inl rfl), ?_, fun st c' o' hst => ?_⟩
      · unfold Core.tokN Core.note at h
        simp only [hr, if_true] at h
        cases h; rfl
      · unfold Core.tokN Core.note
        simp only [hr']; rfl
    | cls =>
      cases s with
      | nil => cases h
      | cons f s =>
        rcases hs f (by simp) with rfl | ⟨e', rfl, _⟩
        · refine ⟨s, fun f hf => hs f (by simp [hf]), ?_, fun st c' o' hst => ?_⟩
          · unfold Core.tokN Core.note at h
            simp only [List.cons_append] at h hr
            simp only [hr, if_true] at h
            cases h; rfl
          · have := hr' st
            rw [List.cons_append] at this
            unfold Core.tokN Core.note
            simp only [List.cons_append, this]
        · cases h
    | dollar =>
      unfold Core.tokN at h
      dsimp only at h
      split at h
      · next st hst =>
        cases s with
        | nil => cases hst
        | cons f s => cases hst; rcases hs .dollar (by simp) with h | ⟨e', h, _⟩ <;> cases h
      · rw [hm] at h; simp at h
    | amp =>
      cases s with
      | nil => cases h
      | cons f s =>
        rcases hs f (by simp) with rfl | ⟨e', rfl, h1, h2, h3⟩
        · cases h
        · unfold Core.tokN Core.note at h
          simp only [List.cons_append] at h hr
          split at h
          swap
          · cases h
          next he =>
          refine ⟨.env e' :: s, hs, by cases h; rfl, fun st c' o' hst => ?_⟩
          have := hr' st
          rw [List.cons_append] at this
          unfold Core.tokN Core.note
          simp only [List.cons_append, he, if_true, this]
    | par => unfold Core.tokN at h; simp [hm] at h
    | ch x =>
      unfold Core.tokN Core.note at h
      simp only [hm, hr, if_true] at h
      split at h
      · cases h
      next h1 =>
      refine ⟨s, hs, ?_, fun st c' o' hst => ?_⟩
      · split at h <;> (cases h; rfl)
      · unfold Core.tokN Core.note
        simp only [hM st hst, hr', h1, if_false, if_true, ite_self]
  obtain ⟨s', h1, h2, h3⟩ := key
  exact ⟨s', h1, h2, fun st c' o' hst => by rw [tok_eq _ _ (hp st hst)]; exact h3 st c' o' hst⟩


theorem tok_cmd_stack {c : List Tok} {o : List Item} {n : Text} {k : Core} (h : (⟨[.hole], c, o⟩ : Core).tok (.cmd n) = some k) :
    k.stack = [.hole] := by
  unfold Core.tok Core.tokN Core.note at h
  dsimp only at h
  repeat' split at h
  all_goals first | (cases h; done) | (cases h; rfl) | simp_all [inMath, Frame.isMath]

/-- two modes that differ at most in whether the line is blank so far -/
def MRel (m n : Mode) : Prop := n = m ∨ (m = .txt true ∧ n = .txt false)

theorem plainChar_hole {s : List Frame} (hs : ∀ f ∈ s, Inner f) {b b' : Bool} {c : List Tok} {o : List Item} {x : Char} (hx : x ≠ '\n') {r : St}
    (hb : b' = b ∨ (b = true ∧ b' = false))
    (h : plainChar b ⟨s ++ [.hole], c, o⟩ x = some r) :
    ∃ s' ts, (∀ f ∈ s', Inner f) ∧ r.core = ⟨s' ++ [.hole], c ++ ts, o⟩ ∧
      ∀ st c' o', Place st → ∃ m', MRel r.mode m' ∧
        plainChar b' ⟨s ++ st, c', o'⟩ x = some ⟨m', ⟨s' ++ st, if recording st then c' ++ ts else c', o'⟩⟩ := by
  unfold plainChar at h
  simp only [if_neg hx] at h
  split at h
  · next h1 =>
    cases h
    refine ⟨s, [], hs, by simp, fun st c' o' hst => ⟨.txt b', ?_, ?_⟩⟩
    · rcases hb with rfl | ⟨rfl, rfl⟩
      · exact .inl rfl
      · exact .inr ⟨rfl, rfl⟩
    · unfold plainChar; simp [h1]
  next h1 =>
  split at h
  · next h2 =>
    cases h
    refine ⟨s, [], hs, by simp, fun st c' o' hst => ⟨.esc, .inl rfl, ?_⟩⟩
    unfold plainChar; simp [h2]
  next h2 =>
  rw [Option.map_eq_some_iff] at h
  obtain ⟨k, hk, rfl⟩ := h
  obtain ⟨s', h3, rfl, h4⟩ := tok_hole hs hk
  refine ⟨s', _, h3, rfl, fun st c' o' hst => ⟨.txt false, .inl rfl, ?_⟩⟩
  unfold plainChar
  simp only [if_neg hx, if_neg h1, if_neg h2]
  rw [h4 st c' o' hst]
  rfl

theorem step_hole {s : List Frame} (hs : ∀ f ∈ s, Inner f) {m n : Mode} (hmn : MRel m n) {c : List Tok} {o : List Item} {x : Char} (hx : x ≠ '\n')
    {r : St} (hv : ∀ k, m ≠ .verb k) (h : (⟨m, ⟨s ++ [.hole], c, o⟩⟩ : St).step x = some r) :
    ∃ s' ts, (∀ f ∈ s', Inner f) ∧ r.core = ⟨s' ++ [.hole], c ++ ts, o⟩ ∧ (∀ k, r.mode ≠ .verb k) ∧
      ∀ st c' o', Place st → ∃ m', MRel r.mode m' ∧
        (⟨n, ⟨s ++ st, c', o'⟩⟩ : St).step x = some ⟨m', ⟨s' ++ st, if recording st then c' ++ ts else c', o'⟩⟩ := by
  have pv : ∀ {b k r}, plainChar b k x = some r → ∀ j, r.mode ≠ .verb j := by
    intro b k r h j
    unfold plainChar at h
    simp only [if_neg hx] at h
    split at h
    · cases h; simp
    split at h
    · cases h; simp
    rw [Option.map_eq_some_iff] at h
    obtain ⟨k, hk, rfl⟩ := h
    simp
  unfold St.step at h
  cases m with
  | verb k => exact absurd rfl (hv k)
  | txt b =>
    dsimp only at h
    obtain ⟨b', rfl, hb⟩ : ∃ b', n = .txt b' ∧ (b' = b ∨ (b = true ∧ b' = false)) := by
      rcases hmn with rfl | ⟨h1, rfl⟩
      · exact ⟨b, rfl, .inl rfl⟩
      · cases h1; exact ⟨false, rfl, .inr ⟨rfl, rfl⟩⟩
    obtain ⟨s', ts, h1, h2, h3⟩ := plainChar_hole hs hx hb h
    exact ⟨s', ts, h1, h2, pv h, h3⟩
  | esc =>
    obtain rfl : n = .esc := by rcases hmn with h | ⟨h, _⟩; exact h; cases h
    dsimp only at h
    split at h
    · next hl =>
      cases h
      exact ⟨s, [], hs, by simp, by simp, fun st c' o' hst => ⟨_, .inl rfl, by simp [St.step, hl]⟩⟩
    · next hl =>
      rw [Option.map_eq_some_iff] at h
      obtain ⟨k, hk, rfl⟩ := h
      obtain ⟨s', h3, rfl, h4⟩ := tok_hole hs hk
      refine ⟨s', _, h3, rfl, by simp, fun st c' o' hst => ⟨.txt false, .inl rfl, ?_⟩⟩
      unfold St.step
      simp only [hl]
      rw [h4 st c' o' hst]
      rfl
  | name acc =>
    obtain rfl : n = .name acc := by rcases hmn with h | ⟨h, _⟩; exact h; cases h
    dsimp only at h
    split at h
    · next hl =>
      cases h
      exact ⟨s, [], hs, by simp, by simp, fun st c' o' hst => ⟨_, .inl rfl, by simp [St.step, hl]⟩⟩
    next hl =>
    split at h
    · next ha =>
      split at h
      · next hb =>
        cases h
        exact ⟨s, [], hs, by simp, by simp, fun st c' o' hst => ⟨_, .inl rfl, by simp [St.step, ha, hb, show isLetter '{' = false by decide]⟩⟩
      · cases h
    next ha =>
    split at h
    · next he =>
      split at h
      · next hb =>
        cases h
        exact ⟨s, [], hs, by simp, by simp, fun st c' o' hst => ⟨_, .inl rfl, by simp [St.step, he, hb, show isLetter '{' = false by decide, show tEnd ≠ tBegin by decide]⟩⟩
      · cases h
    next he =>
    split at h
    · cases h
    next k hk =>
    obtain ⟨s', h3, rfl, h4⟩ := tok_hole hs hk
    obtain ⟨s'', ts, h5, h6, h7⟩ := plainChar_hole h3 hx (.inl rfl) h
    refine ⟨s'', [.cmd acc] ++ ts, h5, by rw [h6]; simp, pv h, fun st c' o' hst => ?_⟩
    obtain ⟨m', h8, h9⟩ := h7 st (if recording st then c' ++ [.cmd acc] else c') o' hst
    refine ⟨m', h8, ?_⟩
    unfold St.step
    simp only [hl, ha, he, if_false]
    rw [h4 st c' o' hst]
    simp only [Bool.false_eq_true, if_false]
    rw [h9]
    cases recording st <;> simp
  | env f acc =>
    obtain rfl : n = .env f acc := by rcases hmn with h | ⟨h, _⟩; exact h; cases h
    dsimp only at h
    split at h
    · next hc =>
      split at h
      · next hf =>
        rw [Option.map_eq_some_iff] at h
        obtain ⟨k, hk, rfl⟩ := h
        obtain ⟨s', h3, rfl, h4⟩ := tok_hole hs hk
        refine ⟨s', _, h3, rfl, by simp, fun st c' o' hst => ⟨.txt false, .inl rfl, ?_⟩⟩
        unfold St.step
        simp only [hc, hf, if_true]
        rw [h4 st c' o' hst]
        rfl
      next hf =>
      split at h
      · rw [inMath_append s [.hole] rfl] at h; simp at h
      next hv =>
      rw [Option.map_eq_some_iff] at h
      obtain ⟨k, hk, rfl⟩ := h
      obtain ⟨s', h3, rfl, h4⟩ := tok_hole hs hk
      refine ⟨s', _, h3, rfl, by simp, fun st c' o' hst => ⟨.txt false, .inl rfl, ?_⟩⟩
      unfold St.step
      simp only [hc, hf, hv, if_true, if_false]
      rw [h4 st c' o' hst]
      rfl
    · next hc =>
      cases h
      exact ⟨s, [], hs, by simp, by simp, fun st c' o' hst => ⟨_, .inl rfl, by simp [St.step, hc]⟩⟩

theorem feed_hole {t : Text} (ht : '\n' ∉ t) {s : List Frame} (hs : ∀ f ∈ s, Inner f) {m n : Mode} (hmn : MRel m n) {c : List Tok} {o : List Item}
    {r : St} (hv : ∀ k, m ≠ .verb k) (h : feed ⟨m, ⟨s ++ [.hole], c, o⟩⟩ t = some r) :
    ∃ s' ts, (∀ f ∈ s', Inner f) ∧ r.core = ⟨s' ++ [.hole], c ++ ts, o⟩ ∧
      ∀ st c' o', Place st → ∃ m', MRel r.mode m' ∧
        feed ⟨n, ⟨s ++ st, c', o'⟩⟩ t = some ⟨m', ⟨s' ++ st, if recording st then c' ++ ts else c', o'⟩⟩ := by
  induction t generalizing s m n c with
  | nil =>
    cases h
    exact ⟨s, [], hs, by simp, fun st c' o' _ => ⟨n, hmn, by simp [feed]⟩⟩
  | cons x t ih =>
    simp only [feed] at h
    split at h
    · cases h
    next r1 h1 =>
    obtain ⟨s1, t1, a1, a2, a3, a4⟩ := step_hole hs hmn (fun hh => ht (by simp [hh])) hv h1
    obtain ⟨m1, k1⟩ := r1
    dsimp only at a2 a3 a4
    subst a2
    have hnt : '\n' ∉ t := fun hh => ht (by simp [hh])
    obtain ⟨s2, t2, b1, b2, -⟩ := ih hnt a1 (.inl rfl) a3 h
    refine ⟨s2, t1 ++ t2, b1, by rw [b2]; simp, fun st c' o' hst => ?_⟩
    obtain ⟨m', hm', he⟩ := a4 st c' o' hst
    obtain ⟨s3, t3, d1, d2, d3⟩ := ih hnt a1 hm' a3 h
    have e2 : t3 = t2 := by rw [b2] at d2; simpa using (congrArg Core.cur d2).symm
    have e1 : s3 = s2 := by rw [b2] at d2; simpa using (congrArg Core.stack d2).symm
    subst e1 e2
    obtain ⟨m2, e3, e4⟩ := d3 st (if recording st then c' ++ t1 else c') o' hst
    refine ⟨m2, e3, ?_⟩
    simp only [feed, he]
    rw [e4]
    cases recording st <;> simp

/-- **A part of a formula** is read in the same way at all places in mathematics. -/
theorem math_feed {t : Text} (h : mathOK t = true) {st : List Frame} (hst : Place st) (b : Bool) (c : List Tok) (o : List Item) (x : Char)
    (hx : isLetter x = false) (rest : Text) :
    feed ⟨.txt b, ⟨st, c, o⟩⟩ (t ++ x :: rest) =
      feed ⟨.txt false, ⟨st, if recording st then c ++ mathToks t else c, o⟩⟩ (x :: rest) := by
  unfold mathOK at h
  rw [Bool.and_eq_true] at h
  obtain ⟨h1, h2⟩ := h
  have hn : '\n' ∉ t := by simpa using h1
  have hrel : MRel (.txt true) (.txt b) := by cases b; exact .inr ⟨rfl, rfl⟩; exact .inl rfl
  cases hf : feed ⟨.txt true, ⟨[.hole], [], []⟩⟩ t with
  | none => rw [hf] at h2; cases h2
  | some r =>
    obtain ⟨s', ts, a1, a2, a3⟩ := feed_hole (s := []) hn (by simp) hrel (by simp) hf
    obtain ⟨m, k⟩ := r
    dsimp only at a2 a3
    subst a2
    obtain ⟨m', b1, b2⟩ := a3 st c o hst
    rw [hf] at h2
    simp only [List.nil_append] at b2 hf
    rw [feed_trans b2 rfl]
    have hs' : ∀ s' : List Frame, s' ++ [Frame.hole] = [.hole] → s' = [] := by
      intro s' h; cases s' with
      | nil => rfl
      | cons a l => simp at h
    cases m with
    | txt b' =>
      cases b' with
      | true => cases h2
      | false =>
        have := hs' s' (by simpa using h2)
        subst this
        obtain rfl : m' = .txt false := by rcases b1 with h | ⟨h, _⟩; exact h; cases h
        have ht : mathToks t = ts := by simp [mathToks, hf]
        rw [ht]; rfl
    | name acc =>
      simp only [Bool.and_eq_true, decide_eq_true_eq] at h2
      obtain ⟨⟨⟨g1, g2⟩, g3⟩, g4⟩ := h2
      have := hs' s' g1
      subst this
      obtain rfl : m' = .name acc := by rcases b1 with h | ⟨h, _⟩; exact h; cases h
      have ht : mathToks t = ts ++ [.cmd acc] := by simp [mathToks, hf]
      rw [ht]
      cases hk : (⟨[] ++ [.hole], [] ++ ts, []⟩ : Core).tok (.cmd acc) with
      | none => rw [hk] at g4; cases g4
      | some k =>
        obtain ⟨s2, c1, c2, c3⟩ := tok_hole (s := []) (by simp) hk
        have g2' : acc ≠ tBegin := by simpa using g2
        have g3' : acc ≠ tEnd := by simpa using g3
        have hs2 : s2 = [] := by
          have := tok_cmd_stack hk
          rw [c2] at this
          exact hs' s2 this
        subst hs2
        have := c3 st (if recording st then c ++ ts else c) o hst
        simp only [feed]
        unfold St.step
        simp only [hx, g2', g3', if_false, Bool.false_eq_true]
        simp only [List.nil_append] at this ⊢
        rw [this]
        cases recording st <;> simp
    | esc => cases h2
    | env f a => cases h2
    | verb k => cases h2

end Verif.Out.Tex
