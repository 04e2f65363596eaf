import Verif.Out.LatexReader
import Verif.Out.LatexModel
/-!
# The texts of the report, read
-/
namespace Verif.Out.Tex
open Verif.Out

/-! ## Lines -/

theorem splitLines_snoc (t : Text) (c : Char) : plines (splitLines (t ++ [c])) = if c = '\n' then t ++ [c] else t ++ [c, '\n'] := by
  induction t with
  | nil =>
    simp only [List.nil_append, splitLines]
    split <;> simp [plines, eol, *]
  | cons x t ih =>
    have hne : splitLines (t ++ [c]) ≠ [] := by
      intro h; rw [h] at ih
      simp only [plines, List.map_nil, List.flatten_nil] at ih
      split at ih <;> simp at ih
    simp only [List.cons_append, splitLines]
    split
    · next hx =>
      simp only [plines, List.map_cons, List.flatten_cons] at *
      rw [ih]; subst hx
      split <;> simp [eol]
    · cases hs : splitLines (t ++ [c]) with
      | nil => exact absurd hs hne
      | cons l ls =>
        rw [hs] at ih
        simp only [plines, List.map_cons, List.flatten_cons] at *
        simp only [List.cons_append]
        rw [ih]
        split <;> rfl

theorem plines_eol {t a : Text} (h : t = a ++ eol) : plines (splitLines t) = t := by
  rw [h, eol, splitLines_snoc]; simp

theorem plines_other {t a : Text} {c : Char} (h : t = a ++ [c]) (hc : c ≠ '\n') : plines (splitLines t) = t ++ eol := by
  rw [h, splitLines_snoc, if_neg hc]; simp [eol]

/-- The section `t` shows `o`. -/
def Sec (t : Text) (o : List Item) : Prop :=
  ∀ O, feed ⟨.txt true, ⟨[], [], O⟩⟩ (plines (splitLines t)) = some ⟨.txt true, ⟨[], [], O ++ o⟩⟩

theorem sec_eol {t a : Text} {o : List Item} (h : t = a ++ eol) (hf : feed ⟨.txt true, ⟨[], [], []⟩⟩ t = some ⟨.txt true, ⟨[], [], o⟩⟩) : Sec t o := by
  intro O
  rw [plines_eol h]
  exact feed_out hf O

theorem sec_other {t a : Text} {c : Char} {b : Bool} {o : List Item} (h : t = a ++ [c]) (hc : c ≠ '\n')
    (hf : feed ⟨.txt true, ⟨[], [], []⟩⟩ t = some ⟨.txt b, ⟨[], [], o⟩⟩) : Sec t o := by
  intro O
  rw [plines_other h hc]
  refine feed_trans (feed_out hf O) ?_
  cases b <;> rfl

theorem sections_show {ss : List Text} {os : List (List Item)} (h : List.Forall₂ Sec ss os) (O : List Item) :
    feed ⟨.txt true, ⟨[], [], O⟩⟩ (sectionsText ss) = some ⟨.txt true, ⟨[], [], O ++ os.flatten⟩⟩ := by
  induction h generalizing O with
  | nil => simp [sectionsText, feed]
  | @cons a o' _ _ h _ ih =>
    simp only [sectionsText, List.map_cons, List.flatten_cons]
    rw [List.append_assoc]
    refine feed_trans (s' := ⟨.txt true, ⟨[], [], O⟩⟩) rfl ?_
    refine feed_trans (h O) ?_
    have := ih (O ++ o')
    rw [sectionsText] at this
    rw [this, List.append_assoc]

/-! ## Plain text and names -/

/-- characters a robot's name may have: plain text or underscores -/
def nameText (t : Text) : Prop := ∀ c ∈ t, c ∉ ['\\', '{', '}', '$', '&', '#', '%', '^', '\n']

theorem tok_ch {st : List Frame} (hst : ∀ f st', st = f :: st' → f ≠ .tabWait ∧ ∀ n, f ≠ .tabArg n) (hr : recording st = false) {c : Char}
    (hc : c ∉ ['#', '%', '_', '^']) (cu : List Tok) (o : List Item) : (⟨st, cu, o⟩ : Core).tok (.ch c) = some ⟨st, cu, o⟩ := by
  rw [tok_eq _ _ hst]
  simp only [List.mem_cons, List.not_mem_nil, or_false, not_or] at hc
  unfold Core.tokN Core.note
  simp [hc, hr]

theorem escU_feed {st : List Frame} (hst : ∀ f st', st = f :: st' → f ≠ .tabWait ∧ ∀ n, f ≠ .tabArg n) (hr : recording st = false) {t : Text}
    (ht : nameText t) (b : Bool) (cu : List Tok) (o : List Item) :
    ∃ b', feed ⟨.txt b, ⟨st, cu, o⟩⟩ (escU t) = some ⟨.txt b', ⟨st, cu, o⟩⟩ := by
  induction t generalizing b with
  | nil => exact ⟨b, rfl⟩
  | cons c t ih =>
    have ht' : nameText t := fun c hc => ht c (by simp [hc])
    have hc := ht c (by simp)
    simp only [List.mem_cons, List.not_mem_nil, or_false, not_or] at hc
    obtain ⟨h1, h2, h3, h4, h5, h6, h7, h8, h9⟩ := hc
    unfold escU
    split
    · have h : (⟨st, cu, o⟩ : Core).tok (.cmd ['_']) = some ⟨st, cu, o⟩ := by
        rw [tok_eq _ _ hst]
        unfold Core.tokN Core.note
        simp only [show (['_'] : Text) ≠ tDispO by decide, show (['_'] : Text) ≠ tDispC by decide, show (['_'] : Text) ≠ tItem by decide,
          show (['_'] : Text) ≠ tHline by decide, show (['_'] : Text) ≠ tBr by decide, show (['_'] : Text) ≠ tSubsection by decide, if_false, hr,
          Bool.false_eq_true]
      obtain ⟨b', hb⟩ := ih ht' false
      refine ⟨b', ?_⟩
      have e1 : (⟨.txt b, ⟨st, cu, o⟩⟩ : St).step '\\' = some ⟨.esc, ⟨st, cu, o⟩⟩ := by
        simp [St.step, plainChar]
      have e2 : (⟨.esc, ⟨st, cu, o⟩⟩ : St).step '_' = some ⟨.txt false, ⟨st, cu, o⟩⟩ := by
        simp [St.step, show isLetter '_' = false by decide, h]
      simp only [feed, e1, e2]
      exact hb
    · next hu =>
      have e : ∃ b1, (⟨.txt b, ⟨st, cu, o⟩⟩ : St).step c = some ⟨.txt b1, ⟨st, cu, o⟩⟩ := by
        by_cases hs : c = ' '
        · subst hs; exact ⟨b, by simp [St.step, plainChar]⟩
        · refine ⟨false, ?_⟩
          simp only [St.step, plainChar, if_neg h9, if_neg hs, if_neg h1, if_neg h2, if_neg h3, if_neg h4, if_neg h5]
          rw [tok_ch hst hr (by simp [h6, h7, hu, h8])]
          rfl
      obtain ⟨b1, e⟩ := e
      obtain ⟨b', hb⟩ := ih ht' b1
      exact ⟨b', by simp only [feed, e]; exact hb⟩

theorem plain_feed {st : List Frame} (hst : ∀ f st', st = f :: st' → f ≠ .tabWait ∧ ∀ n, f ≠ .tabArg n) (hr : recording st = false) {t : Text}
    (ht : plainText t) (b : Bool) (cu : List Tok) (o : List Item) :
    ∃ b', feed ⟨.txt b, ⟨st, cu, o⟩⟩ t = some ⟨.txt b', ⟨st, cu, o⟩⟩ := by
  have he : escU t = t := by
    clear hst hr
    induction t with
    | nil => rfl
    | cons c t ih =>
      have hc := ht c (by simp)
      simp only [List.mem_cons, List.not_mem_nil, or_false, not_or] at hc
      simp only [escU, hc, if_false, ih fun c hc => ht c (by simp [hc])]
  have := escU_feed hst hr (t := t) (fun c hc => by have := ht c hc; simp_all) b cu o
  rwa [he] at this

theorem dropTest_name {t : Text} (h : nameText t) : nameText (dropTest t) := by
  have : ∀ t : Text, ∀ c ∈ dropTest t, c ∈ t := by
    intro t
    induction t using dropTest.induct with
    | case1 cs ih => intro c hc; simp only [dropTest] at hc; simp [ih c hc]
    | case2 c cs h ih =>
      intro x hx
      rw [dropTest] at hx
      · rcases List.mem_cons.1 hx with rfl | hx
        · simp
        · simp [ih x hx]
      · exact h
    | case3 => intro c hc; cases hc
  exact fun c hc => h c (this t c hc)

/-! ## verbatim -/

theorem verb_feed {t : Text} (h : '\\' ∉ t) (k : Core) : feed ⟨.verb 0, k⟩ t = some ⟨.verb 0, k⟩ := by
  induction t with
  | nil => rfl
  | cons c t ih =>
    have hc : c ≠ '\\' := fun e => h (by simp [e])
    have : (⟨.verb 0, k⟩ : St).step c = some ⟨.verb 0, k⟩ := by
      have h0 : verbEnd[0]? = some '\\' := rfl
      simp only [St.step, h0]
      rw [if_neg (by simpa using Ne.symm hc), if_neg hc]
    simp only [feed, this]
    exact ih fun hh => h (by simp [hh])

end Verif.Out.Tex
