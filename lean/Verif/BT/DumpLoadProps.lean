import Verif.BT.DumpLoad
import Verif.BT.Props
/-!
# C13: what `load` makes of `dump`
-/
namespace Verif.BT.DumpLoad

/-! ## Specification -/

mutual
/-- All nodes of a tree, as subtrees. -/
def T.subs : T → List T
  | .leaf h => [.leaf h]
  | .comp h cs => .comp h cs :: subsL cs
  | .deco h c => .deco h c :: c.subs
  | .decoEmpty h => [.decoEmpty h]
def subsL : List T → List T
  | [] => []
  | c :: cs => c.subs ++ subsL cs
end

/-- One id is one object: nodes with the same id are the same node (sharing allowed). -/
def Consistent (t : T) : Prop := ∀ a ∈ t.subs, ∀ b ∈ t.subs, a.hdr.id = b.hdr.id → a = b

/-- The node's class can be found, has the right category and is constructible without arguments; its title is
not empty; it is not a decorator without child. -/
def Loadable (names : String → Option Cls) : T → Prop
  | .leaf h => findClass names h.cls = some ⟨.leaf, true⟩ ∧ h.title ≠ ""
  | .comp h _ => findClass names h.cls = some ⟨.composite, true⟩ ∧ h.title ≠ ""
  | .deco h _ => findClass names h.cls = some ⟨.decorator, true⟩ ∧ h.title ≠ ""
  | .decoEmpty _ => False

mutual
/-- `Rep heap i t`: the object with key `i` is the root of an object graph that looks like `t`. -/
inductive Rep (heap : Dict Obj) : Id → T → Prop where
  | leaf {i o} : heap.get? i = some o → o.cat = .leaf → Rep heap i (.leaf o.hdr)
  | comp {i o cs} : heap.get? i = some o → o.cat = .composite → RepL heap o.children cs → Rep heap i (.comp o.hdr cs)
  | deco {i o j c} : heap.get? i = some o → o.cat = .decorator → o.child = some j → Rep heap j c →
      Rep heap i (.deco o.hdr c)
inductive RepL (heap : Dict Obj) : List Id → List T → Prop where
  | nil : RepL heap [] []
  | cons {i is c cs} : Rep heap i c → RepL heap is cs → RepL heap (i :: is) (c :: cs)
end

mutual
/-- The tree with the children of every composite in reverse order. -/
def T.mirror : T → T
  | .leaf h => .leaf h
  | .comp h cs => .comp h (mirrors cs).reverse
  | .deco h c => .deco h c.mirror
  | .decoEmpty h => .decoEmpty h
def mirrors : List T → List T
  | [] => []
  | c :: cs => c.mirror :: mirrors cs
end

/-! ## Lemmas -/

theorem get?_put {α} (d : Dict α) (k : Id) (v : α) (k' : Id) :
    (d.put k v).get? k' = if k' = k then some v else d.get? k' := by
  induction d with
  | nil =>
    simp only [Dict.put, Dict.get?]
    by_cases h : k' = k
    · simp [h]
    · simp [h, Ne.symm h]
  | cons p d ih =>
    obtain ⟨k1, v1⟩ := p
    simp only [Dict.put]
    by_cases h1 : k1 = k
    · subst h1
      simp only [if_true, Dict.get?]
      by_cases h : k' = k1
      · simp [h]
      · simp [h, Ne.symm h]
    · simp only [if_neg h1, Dict.get?, ih]
      by_cases h2 : k1 = k'
      · simp [h2]; intro h; exact absurd (h2.trans h) h1
      · simp [h2]

theorem mem_put {α} {d : Dict α} {k : Id} {v : α} {p : Id × α} (h : p ∈ d.put k v) : p ∈ d ∨ p = (k, v) := by
  induction d with
  | nil => simp [Dict.put] at h; exact .inr h
  | cons q d ih =>
    obtain ⟨k1, v1⟩ := q
    simp only [Dict.put] at h
    split at h
    · rename_i hk; subst hk
      rcases List.mem_cons.1 h with h | h
      · exact .inr h
      · exact .inl (by simp [h])
    · rcases List.mem_cons.1 h with h | h
      · exact .inl (by simp [h])
      · rcases ih h with h | h
        · exact .inl (by simp [h])
        · exact .inr h

theorem get?_mem {α} {d : Dict α} {k : Id} {v : α} (h : d.get? k = some v) : (k, v) ∈ d := by
  induction d with
  | nil => simp [Dict.get?] at h
  | cons q d ih =>
    obtain ⟨k1, v1⟩ := q
    simp only [Dict.get?] at h
    split at h
    · rename_i hk; cases h; simp [hk]
    · exact List.mem_cons_of_mem _ (ih h)

theorem mem_get? {α} {d : Dict α} {p : Id × α} (h : p ∈ d) : (d.get? p.1).isSome := by
  induction d with
  | nil => cases h
  | cons q d ih =>
    obtain ⟨k1, v1⟩ := q
    simp only [Dict.get?]
    split
    · rfl
    · rename_i hk
      rcases List.mem_cons.1 h with h | h
      · rw [h] at hk; exact absurd rfl hk
      · exact ih h

theorem self_mem_subs (t : T) : t ∈ t.subs := by cases t <;> simp [T.subs]

theorem subsL_mem {c : T} : ∀ {cs : List T}, c ∈ cs → ∀ r ∈ c.subs, r ∈ subsL cs
  | [], h, _, _ => by cases h
  | c' :: cs, h, r, hr => by
    simp only [subsL, List.mem_append]
    rcases List.mem_cons.1 h with h | h
    · subst h; exact .inl hr
    · exact .inr (subsL_mem h r hr)

theorem subsL_inv {r : T} : ∀ {cs : List T}, r ∈ subsL cs → ∃ c ∈ cs, r ∈ c.subs
  | [], h => by simp [subsL] at h
  | c' :: cs, h => by
    simp only [subsL, List.mem_append] at h
    rcases h with h | h
    · exact ⟨c', by simp, h⟩
    · obtain ⟨c, h1, h2⟩ := subsL_inv h; exact ⟨c, by simp [h1], h2⟩

mutual
theorem subs_trans : ∀ (t : T) {a b : T}, a ∈ t.subs → b ∈ a.subs → b ∈ t.subs
  | .leaf h, a, b, ha, hb => by simp [T.subs] at ha; subst ha; exact hb
  | .decoEmpty h, a, b, ha, hb => by simp [T.subs] at ha; subst ha; exact hb
  | .comp h cs, a, b, ha, hb => by
    simp only [T.subs, List.mem_cons] at ha
    rcases ha with ha | ha
    · subst ha; exact hb
    · simp only [T.subs, List.mem_cons]; exact .inr (subsL_trans cs ha hb)
  | .deco h c, a, b, ha, hb => by
    simp only [T.subs, List.mem_cons] at ha
    rcases ha with ha | ha
    · subst ha; exact hb
    · simp only [T.subs, List.mem_cons]; exact .inr (subs_trans c ha hb)
theorem subsL_trans : ∀ (cs : List T) {a b : T}, a ∈ subsL cs → b ∈ a.subs → b ∈ subsL cs
  | [], a, b, ha, hb => by simp [subsL] at ha
  | c :: cs, a, b, ha, hb => by
    simp only [subsL, List.mem_append] at ha ⊢
    rcases ha with ha | ha
    · exact .inl (subs_trans c ha hb)
    · exact .inr (subsL_trans cs ha hb)
end

/-- What `dump` writes for a node. -/
def specOf : T → Spec
  | .leaf h => { hdr := h }
  | .comp h cs => { hdr := h, children := some ((cs.map (·.hdr.id)).reverse) }
  | .deco h c => { hdr := h, child := some c.hdr.id }
  | .decoEmpty h => { hdr := h }

theorem sizes_append (a b : List T) : sizes (a ++ b) = sizes a + sizes b := by
  induction a with
  | nil => simp [sizes]
  | cons c cs ih => simp only [List.cons_append, sizes, ih]; omega

theorem T.size_pos (t : T) : 0 < t.size := by cases t <;> simp only [T.size] <;> omega

/-- Every entry of the dict is that of a node of `t`. -/
def GoodD (t : T) (d : Dict Spec) : Prop := ∀ p ∈ d, ∃ s ∈ t.subs, s.hdr.id = p.1 ∧ p.2 = specOf s

theorem goodD_put {t : T} {d : Dict Spec} (h : GoodD t d) {s : T} (hs : s ∈ t.subs) :
    GoodD t (d.put s.hdr.id (specOf s)) := by
  intro p hp
  rcases mem_put hp with hp | hp
  · exact h p hp
  · exact ⟨s, hs, by simp [hp], by simp [hp]⟩

theorem isSome_put {d : Dict Spec} {k k' : Id} {v : Spec} (h : (d.get? k').isSome) :
    ((d.put k v).get? k').isSome := by
  rw [get?_put]; split
  · rfl
  · exact h

theorem dumpLoop_spec (t : T) (hne : ∀ h, T.decoEmpty h ∉ t.subs) : ∀ n st d, sizes st ≤ n →
    (∀ s ∈ st, s ∈ t.subs) → GoodD t d →
    ∃ d', dumpLoop n st d = .ok d' ∧ GoodD t d' ∧ (∀ k, (d.get? k).isSome → (d'.get? k).isSome) ∧
      ∀ s ∈ st, ∀ r ∈ s.subs, (d'.get? r.hdr.id).isSome := by
  intro n
  induction n with
  | zero =>
    intro st d hn hst hd
    cases st with
    | nil => exact ⟨d, by simp [dumpLoop], hd, fun _ h => h, by simp⟩
    | cons c st => have := c.size_pos; simp only [sizes] at hn; omega
  | succ n ih =>
    intro st d hn hst hd
    cases st with
    | nil => exact ⟨d, by simp [dumpLoop], hd, fun _ h => h, by simp⟩
    | cons c st =>
      have hc : c ∈ t.subs := hst c (by simp)
      have hst' : ∀ s ∈ st, s ∈ t.subs := fun s hs => hst s (by simp [hs])
      have hd' := goodD_put hd hc
      simp only [sizes] at hn
      cases c with
      | leaf h =>
        simp only [T.size] at hn
        obtain ⟨d', h1, h2, h3, h4⟩ := ih st (d.put h.id { hdr := h }) (by omega) hst' hd'
        refine ⟨d', by rw [dumpLoop]; exact h1, h2, fun k hk => h3 k (isSome_put hk), ?_⟩
        intro s hs r hr
        rcases List.mem_cons.1 hs with hs | hs
        · subst hs; simp [T.subs] at hr; subst hr
          exact h3 _ (by rw [get?_put]; simp [T.hdr])
        · exact h4 s hs r hr
      | comp h cs =>
        simp only [T.size] at hn
        obtain ⟨d', h1, h2, h3, h4⟩ := ih (cs ++ st)
          (d.put h.id { hdr := h, children := some ((cs.map (·.hdr.id)).reverse) })
          (by rw [sizes_append]; omega)
          (by
            intro s hs
            rcases List.mem_append.1 hs with hs | hs
            · exact subs_trans t hc (by
                simp only [T.subs, List.mem_cons]; exact .inr (subsL_mem hs s (self_mem_subs s)))
            · exact hst' s hs) hd'
        refine ⟨d', by rw [dumpLoop]; exact h1, h2, fun k hk => h3 k (isSome_put hk), ?_⟩
        intro s hs r hr
        rcases List.mem_cons.1 hs with hs | hs
        · subst hs
          simp only [T.subs, List.mem_cons] at hr
          rcases hr with hr | hr
          · subst hr; exact h3 _ (by rw [get?_put]; simp [T.hdr])
          · obtain ⟨c, hc1, hc2⟩ := subsL_inv hr
            exact h4 c (by simp [hc1]) r hc2
        · exact h4 s (by simp [hs]) r hr
      | deco h c =>
        simp only [T.size] at hn
        obtain ⟨d', h1, h2, h3, h4⟩ := ih (c :: st)
          (d.put h.id { hdr := h, child := some c.hdr.id })
          (by simp only [sizes]; omega)
          (by
            intro s hs
            rcases List.mem_cons.1 hs with hs | hs
            · subst hs; exact subs_trans t hc (by
                simp only [T.subs, List.mem_cons]; exact .inr (self_mem_subs s))
            · exact hst' s hs) hd'
        refine ⟨d', by rw [dumpLoop]; exact h1, h2, fun k hk => h3 k (isSome_put hk), ?_⟩
        intro s hs r hr
        rcases List.mem_cons.1 hs with hs | hs
        · subst hs
          simp only [T.subs, List.mem_cons] at hr
          rcases hr with hr | hr
          · subst hr; exact h3 _ (by rw [get?_put]; simp [T.hdr])
          · exact h4 c (by simp) r hr
        · exact h4 s (by simp [hs]) r hr
      | decoEmpty h => exact absurd hc (hne h)

theorem dump_spec (t : T) (hne : ∀ h, T.decoEmpty h ∉ t.subs) (hcons : Consistent t) :
    ∃ d, dump t = .ok ⟨t.hdr.id, d⟩ ∧ GoodD t d ∧ ∀ s ∈ t.subs, d.get? s.hdr.id = some (specOf s) := by
  obtain ⟨d, h1, h2, _, h4⟩ := dumpLoop_spec t hne t.size [t] [] (by simp [sizes])
    (by simp [self_mem_subs]) (by intro p hp; cases hp)
  refine ⟨d, by simp [dump, h1], h2, ?_⟩
  intro s hs
  have hsome := h4 t (by simp) s hs
  obtain ⟨v, hv⟩ := Option.isSome_iff_exists.1 hsome
  obtain ⟨s', hs', hid, hv'⟩ := h2 _ (get?_mem hv)
  have := hcons s' hs' s hs hid
  rw [hv, ← this]; simp only at hv'; rw [hv']

theorem buildAll_spec (names : String → Option Cls) : ∀ d : Dict Spec, (∀ p ∈ d, ∃ o, build names p.2 = .ok o) →
    ∃ os, buildAll names d = .ok os ∧
      (∀ k s, d.get? k = some s → ∃ o, build names s = .ok o ∧ os.get? k = some o) ∧ os.length = d.length
  | [], _ => ⟨[], rfl, by simp [Dict.get?], rfl⟩
  | (k, s) :: d, h => by
    obtain ⟨o, ho⟩ := h (k, s) (by simp)
    obtain ⟨os, h1, h2, h3⟩ := buildAll_spec names d fun p hp => h p (by simp [hp])
    simp only at ho
    refine ⟨(k, o) :: os, by simp [buildAll, ho, h1], ?_, by simp [h3]⟩
    intro k' s' hk
    simp only [Dict.get?] at hk ⊢
    split at hk
    · rename_i hkk; cases hk; exact ⟨o, ho, by simp [hkk]⟩
    · rename_i hkk; simp only [if_neg hkk]; exact h2 k' s' hk

theorem linkAll_spec (names : String → Option Cls) (heap : Dict Obj) : ∀ (d : Dict Spec) (os : Dict Obj),
    buildAll names d = .ok os → (∀ p ∈ d, ∀ o, build names p.2 = .ok o → ∃ o', link heap p.2 o = .ok o') →
    ∃ os', linkAll heap d os = .ok os' ∧
      ∀ k s, d.get? k = some s → ∃ o o', build names s = .ok o ∧ link heap s o = .ok o' ∧ os'.get? k = some o'
  | [], os, h, _ => by
    simp only [buildAll, Except.ok.injEq] at h; subst h
    exact ⟨[], by simp [linkAll], by simp [Dict.get?]⟩
  | (k, s) :: d, os, h, hl => by
    simp only [buildAll] at h
    cases ho : build names s with
    | error e => rw [ho] at h; cases h
    | ok o =>
      rw [ho] at h; simp only at h
      cases hos : buildAll names d with
      | error e => rw [hos] at h; cases h
      | ok os1 =>
        rw [hos] at h; simp only [Except.ok.injEq] at h; subst h
        obtain ⟨o', ho'⟩ := hl (k, s) (by simp) o ho
        obtain ⟨os', h1, h2⟩ := linkAll_spec names heap d os1 hos fun p hp => hl p (by simp [hp])
        simp only at ho'
        refine ⟨(k, o') :: os', by simp [linkAll, ho', h1], ?_⟩
        intro k' s' hk
        simp only [Dict.get?] at hk ⊢
        split at hk
        · rename_i hkk; cases hk; exact ⟨o, o', ho, ho', by simp [hkk]⟩
        · rename_i hkk; simp only [if_neg hkk]; exact h2 k' s' hk

theorem repL_append {heap : Dict Obj} {is js : List Id} {cs ds : List T} (h1 : RepL heap is cs) (h2 : RepL heap js ds) :
    RepL heap (is ++ js) (cs ++ ds) := by
  induction is generalizing cs with
  | nil => cases h1; exact h2
  | cons i is ih => cases h1 with
    | cons hr hl => exact .cons hr (ih hl)

theorem repL_reverse {heap : Dict Obj} {is : List Id} {cs : List T} (h : RepL heap is cs) :
    RepL heap is.reverse cs.reverse := by
  induction is generalizing cs with
  | nil => cases h; exact .nil
  | cons i is ih => cases h with
    | cons hr hl => simp only [List.reverse_cons]; exact repL_append (ih hl) (.cons hr .nil)

/-- The object that `load` makes of node `s` when everything resolves. -/
def objOf : T → Obj
  | .leaf h => { hdr := h, cat := .leaf }
  | .comp h cs => { hdr := h, cat := .composite, children := (cs.map (·.hdr.id)).reverse }
  | .deco h c => { hdr := h, cat := .decorator, child := some c.hdr.id }
  | .decoEmpty h => { hdr := h, cat := .decorator }

mutual
theorem rep_mirror {heap : Dict Obj} : ∀ s : T, (∀ r ∈ s.subs, heap.get? r.hdr.id = some (objOf r)) →
    (∀ h, T.decoEmpty h ∉ s.subs) → Rep heap s.hdr.id s.mirror
  | .leaf h, hh, _ => .leaf (hh _ (by simp [T.subs])) rfl
  | .decoEmpty h, _, hne => absurd (by simp [T.subs]) (hne h)
  | .comp h cs, hh, hne => by
    have := hh (.comp h cs) (by simp [T.subs])
    simp only [T.mirror, T.hdr] at *
    refine Rep.comp (o := objOf (.comp h cs)) this rfl ?_
    simp only [objOf]
    exact repL_reverse (repL_mirror cs (fun r hr => hh r (by simp [T.subs, hr]))
      (fun h' hm => hne h' (by simp [T.subs, hm])))
  | .deco h c, hh, hne => by
    have := hh (.deco h c) (by simp [T.subs])
    simp only [T.mirror, T.hdr] at *
    exact Rep.deco (o := objOf (.deco h c)) this rfl rfl
      (rep_mirror c (fun r hr => hh r (by simp [T.subs, hr])) (fun h' hm => hne h' (by simp [T.subs, hm])))
theorem repL_mirror {heap : Dict Obj} : ∀ cs : List T, (∀ r ∈ subsL cs, heap.get? r.hdr.id = some (objOf r)) →
    (∀ h, T.decoEmpty h ∉ subsL cs) → RepL heap (cs.map (·.hdr.id)) (mirrors cs)
  | [], _, _ => .nil
  | c :: cs, hh, hne => .cons
      (rep_mirror c (fun r hr => hh r (by simp [subsL, hr])) (fun h' hm => hne h' (by simp [subsL, hm])))
      (repL_mirror cs (fun r hr => hh r (by simp [subsL, hr])) (fun h' hm => hne h' (by simp [subsL, hm])))
end

theorem build_ok {names : String → Option Cls} {s : T} (h : Loadable names s) :
    ∃ o, build names (specOf s) = .ok o ∧ o.hdr = s.hdr ∧ o.cat = (objOf s).cat ∧ o.children = [] ∧ o.child = none := by
  cases s with
  | decoEmpty h' => exact h.elim
  | leaf h' =>
    simp only [Loadable] at h
    exact ⟨{ hdr := h', cat := .leaf }, by simp [build, specOf, h.1, h.2], rfl, rfl, rfl, rfl⟩
  | comp h' cs =>
    simp only [Loadable] at h
    exact ⟨{ hdr := h', cat := .composite }, by simp [build, specOf, h.1, h.2], rfl, rfl, rfl, rfl⟩
  | deco h' c =>
    simp only [Loadable] at h
    exact ⟨{ hdr := h', cat := .decorator }, by simp [build, specOf, h.1, h.2], rfl, rfl, rfl, rfl⟩

/-! ## Theorems -/

/-- What `load ∘ dump` computes (the true part of C13): for every tree whose classes `load` can construct, both
calls succeed and the loaded object graph is the *mirror image* of the tree — the same nodes, shared where they
were shared, the children of every composite in reverse order.
Missing for C13: "in the same order" (violation below), and decorators with constructor arguments. -/
theorem C13_load_dump_mirror_partial (names : String → Option Cls) (t : T) (hc : Consistent t)
    (hl : ∀ s ∈ t.subs, Loadable names s) :
    ∃ data l, dump t = .ok data ∧ load names data = .ok l ∧ Rep l.heap l.root t.mirror := by
  have hne : ∀ h, T.decoEmpty h ∉ t.subs := fun h hm => hl _ hm
  obtain ⟨d, h1, h2, h3⟩ := dump_spec t hne hc
  have hb : ∀ p ∈ d, ∃ o, build names p.2 = .ok o := by
    intro p hp
    obtain ⟨s, hs, _, hp2⟩ := h2 p hp
    obtain ⟨o, ho, _⟩ := build_ok (hl s hs)
    exact ⟨o, by rw [hp2]; exact ho⟩
  obtain ⟨os, ho1, ho2, _⟩ := buildAll_spec names d hb
  have hsome : ∀ s ∈ t.subs, (os.get? s.hdr.id).isSome := by
    intro s hs
    obtain ⟨o, _, ho⟩ := ho2 _ _ (h3 s hs)
    simp [ho]
  have hlink : ∀ s ∈ t.subs, ∀ o, build names (specOf s) = .ok o → link os (specOf s) o = .ok (objOf s) := by
    intro s hs o ho
    obtain ⟨o', ho', e1, e2, e3, e4⟩ := build_ok (hl s hs)
    rw [ho] at ho'; cases ho'
    have hkids : ∀ h cs, s = .comp h cs → ∀ c ∈ cs, (os.get? c.hdr.id).isSome := by
      intro h cs he c hcc
      subst he
      exact hsome c (subs_trans t hs (by simp only [T.subs, List.mem_cons]; exact .inr (subsL_mem hcc c (self_mem_subs c))))
    obtain ⟨oh, oc, ok, oj⟩ := o
    simp only at e1 e2 e3 e4
    subst e1 e2 e3 e4
    cases s with
    | decoEmpty h' => exact (hl _ hs).elim
    | leaf h' => simp [link, objOf, specOf, T.hdr]
    | comp h' cs =>
      simp only [link, objOf, specOf, T.hdr, List.nil_append]
      rw [if_pos]
      simp only [List.all_eq_true, List.mem_reverse, List.mem_map]
      rintro i ⟨c, hcc, rfl⟩
      exact hkids h' cs rfl c hcc
    | deco h' c =>
      simp only [link, objOf, specOf, T.hdr]
      rw [if_pos]
      exact hsome c (subs_trans t hs (by simp only [T.subs, List.mem_cons]; exact .inr (self_mem_subs c)))
  obtain ⟨os', hl1, hl2⟩ := linkAll_spec names os d os ho1 (by
    intro p hp o ho
    obtain ⟨s, hs, _, hp2⟩ := h2 p hp
    rw [hp2] at ho ⊢
    exact ⟨_, hlink s hs o ho⟩)
  have hheap : ∀ s ∈ t.subs, os'.get? s.hdr.id = some (objOf s) := by
    intro s hs
    obtain ⟨o, o', e1, e2, e3⟩ := hl2 _ _ (h3 s hs)
    rw [hlink s hs o e1] at e2
    cases e2; exact e3
  refine ⟨⟨t.hdr.id, d⟩, ⟨t.hdr.id, os'⟩, h1, ?_, rep_mirror t hheap hne⟩
  simp only [load, ho1, hl1, hheap t (self_mem_subs t)]

mutual
theorem rep_unique {heap : Dict Obj} : ∀ (t : T) (i : Id) (t' : T), Rep heap i t → Rep heap i t' → t = t'
  | .leaf h, i, t', h1, h2 => by
    cases h1 with
    | leaf g1 c1 => cases h2 with
      | leaf g2 c2 => rw [g1] at g2; cases g2; rfl
      | comp g2 c2 => rw [g1] at g2; cases g2; rw [c1] at c2; cases c2
      | deco g2 c2 => rw [g1] at g2; cases g2; rw [c1] at c2; cases c2
  | .comp h cs, i, t', h1, h2 => by
    cases h1 with
    | comp g1 c1 k1 => cases h2 with
      | leaf g2 c2 => rw [g1] at g2; cases g2; rw [c1] at c2; cases c2
      | comp g2 c2 k2 => rw [g1] at g2; cases g2; rw [repL_unique _ _ _ k1 k2]
      | deco g2 c2 => rw [g1] at g2; cases g2; rw [c1] at c2; cases c2
  | .deco h c, i, t', h1, h2 => by
    cases h1 with
    | deco g1 c1 j1 k1 => cases h2 with
      | leaf g2 c2 => rw [g1] at g2; cases g2; rw [c1] at c2; cases c2
      | comp g2 c2 k2 => rw [g1] at g2; cases g2; rw [c1] at c2; cases c2
      | deco g2 c2 j2 k2 =>
        rw [g1] at g2; cases g2; rw [j1] at j2; cases j2
        rw [rep_unique _ _ _ k1 k2]
  | .decoEmpty h, i, t', h1, h2 => by cases h1
theorem repL_unique {heap : Dict Obj} : ∀ (cs : List T) (is : List Id) (cs' : List T),
    RepL heap is cs → RepL heap is cs' → cs = cs'
  | [], is, cs', h1, h2 => by cases h1; cases h2; rfl
  | c :: cs, is, cs', h1, h2 => by
    cases h1 with
    | cons a b => cases h2 with
      | cons a' b' => rw [rep_unique _ _ _ a a', repL_unique _ _ _ b b']
end

/-- Hence the loaded tree is not the original one unless it is its own mirror image. -/
theorem C13_load_dump_only_symmetric (names : String → Option Cls) (t : T) (hc : Consistent t)
    (hl : ∀ s ∈ t.subs, Loadable names s) {data : Data} {l : Loaded} (h1 : dump t = .ok data)
    (h2 : load names data = .ok l) (h : Rep l.heap l.root t) : t.mirror = t := by
  obtain ⟨data', l', e1, e2, e3⟩ := C13_load_dump_mirror_partial names t hc hl
  rw [h1] at e1; cases e1
  rw [h2] at e2; cases e2
  exact rep_unique _ _ _ e3 h

mutual
theorem mirror_mirror : ∀ t : T, t.mirror.mirror = t
  | .leaf _ => rfl
  | .decoEmpty _ => rfl
  | .comp h cs => by
    simp only [T.mirror, T.comp.injEq, true_and]
    rw [mirrors_reverse, List.reverse_reverse, mirrors_mirrors cs]
  | .deco h c => by simp only [T.mirror, mirror_mirror c]
theorem mirrors_mirrors : ∀ cs : List T, mirrors (mirrors cs) = cs
  | [] => rfl
  | c :: cs => by simp only [mirrors, mirror_mirror c, mirrors_mirrors cs]
theorem mirrors_append : ∀ as bs : List T, mirrors (as ++ bs) = mirrors as ++ mirrors bs
  | [], bs => rfl
  | a :: as, bs => by simp only [List.cons_append, mirrors, mirrors_append as bs]
theorem mirrors_reverse : ∀ cs : List T, mirrors cs.reverse = (mirrors cs).reverse
  | [] => rfl
  | c :: cs => by simp only [List.reverse_cons, mirrors_append, mirrors_reverse cs, mirrors]
end

mutual
theorem mirror_subs : ∀ (t : T) {s : T}, s ∈ t.mirror.subs → ∃ r ∈ t.subs, s = r.mirror
  | .leaf h, s, hs => by simp [T.mirror, T.subs] at hs; exact ⟨.leaf h, by simp [T.subs], by simp [hs, T.mirror]⟩
  | .decoEmpty h, s, hs => by
    simp [T.mirror, T.subs] at hs; exact ⟨.decoEmpty h, by simp [T.subs], by simp [hs, T.mirror]⟩
  | .comp h cs, s, hs => by
    simp only [T.mirror, T.subs, List.mem_cons] at hs
    rcases hs with hs | hs
    · exact ⟨.comp h cs, by simp [T.subs], by simp [hs, T.mirror]⟩
    · obtain ⟨c, hc1, hc2⟩ := subsL_inv hs
      obtain ⟨r, hr1, hr2⟩ := mirrors_subs cs (subsL_mem (List.mem_reverse.1 hc1) s hc2)
      exact ⟨r, by simp [T.subs, hr1], hr2⟩
  | .deco h c, s, hs => by
    simp only [T.mirror, T.subs, List.mem_cons] at hs
    rcases hs with hs | hs
    · exact ⟨.deco h c, by simp [T.subs], by simp [hs, T.mirror]⟩
    · obtain ⟨r, hr1, hr2⟩ := mirror_subs c hs
      exact ⟨r, by simp [T.subs, hr1], hr2⟩
theorem mirrors_subs : ∀ (cs : List T) {s : T}, s ∈ subsL (mirrors cs) → ∃ r ∈ subsL cs, s = r.mirror
  | [], s, hs => by simp [mirrors, subsL] at hs
  | c :: cs, s, hs => by
    simp only [mirrors, subsL, List.mem_append] at hs
    rcases hs with hs | hs
    · obtain ⟨r, hr1, hr2⟩ := mirror_subs c hs
      exact ⟨r, by simp [subsL, hr1], hr2⟩
    · obtain ⟨r, hr1, hr2⟩ := mirrors_subs cs hs
      exact ⟨r, by simp [subsL, hr1], hr2⟩
end

theorem mirror_hdr (t : T) : t.mirror.hdr = t.hdr := by cases t <;> rfl

theorem mirror_loadable {names : String → Option Cls} {t : T} (h : Loadable names t) : Loadable names t.mirror := by
  cases t <;> exact h

/-- C13, second reading: dumping and loading *twice* gives back the original tree, for the same class of trees
(`t1` is what the first load built). -/
theorem C13_double_round_trip_partial (names : String → Option Cls) (t : T) (hc : Consistent t)
    (hl : ∀ s ∈ t.subs, Loadable names s) :
    ∃ data1 l1 t1 data2 l2, dump t = .ok data1 ∧ load names data1 = .ok l1 ∧ Rep l1.heap l1.root t1 ∧
      dump t1 = .ok data2 ∧ load names data2 = .ok l2 ∧ Rep l2.heap l2.root t := by
  obtain ⟨data1, l1, e1, e2, e3⟩ := C13_load_dump_mirror_partial names t hc hl
  have hc' : Consistent t.mirror := by
    intro a ha b hb hab
    obtain ⟨a', ha', rfl⟩ := mirror_subs t ha
    obtain ⟨b', hb', rfl⟩ := mirror_subs t hb
    rw [mirror_hdr, mirror_hdr] at hab
    rw [hc a' ha' b' hb' hab]
  have hl' : ∀ s ∈ t.mirror.subs, Loadable names s := by
    intro s hs
    obtain ⟨r, hr, rfl⟩ := mirror_subs t hs
    exact mirror_loadable (hl r hr)
  obtain ⟨data2, l2, f1, f2, f3⟩ := C13_load_dump_mirror_partial names t.mirror hc' hl'
  rw [mirror_mirror] at f3
  exact ⟨data1, l1, t.mirror, data2, l2, e1, e2, e3, f1, f2, f3⟩

theorem buildAll_err (names : String → Option Cls) : ∀ (d : Dict Spec) (p : Id × Spec), p ∈ d →
    (∃ e, build names p.2 = .error e) → ∃ e, buildAll names d = .error e
  | [], p, hp, _ => by cases hp
  | (k, s) :: d, p, hp, ⟨e, he⟩ => by
    simp only [buildAll]
    cases hb : build names s with
    | error e' => exact ⟨e', rfl⟩
    | ok o =>
      rcases List.mem_cons.1 hp with hp | hp
      · rw [hp] at he; simp only at he; rw [hb] at he; cases he
      · obtain ⟨e', he'⟩ := buildAll_err names d p hp ⟨e, he⟩
        exact ⟨e', by simp [he']⟩

/-- C13 is false of the code for every tree that contains one of b3's parametrised decorators (Limiter, MaxTime,
Repeater, RepeatUntilFailure, RepeatUntilSuccess): `load` of its dump raises. IKBT's own solver tree is one. -/
theorem C13_parametrised_decorator_violation (names : String → Option Cls) (t : T) (hc : Consistent t)
    (hne : ∀ h, T.decoEmpty h ∉ t.subs) {h : Hdr} {c : T} (hs : T.deco h c ∈ t.subs) (hcls : names h.cls = none)
    (hn : h.cls = "Limiter" ∨ h.cls = "MaxTime" ∨ h.cls = "Repeater" ∨ h.cls = "RepeatUntilFailure" ∨
      h.cls = "RepeatUntilSuccess") {data : Data} (hd : dump t = .ok data) :
    ∃ e, load names data = .error e := by
  obtain ⟨d, h1, h2, h3⟩ := dump_spec t hne hc
  rw [h1] at hd; cases hd
  have hg := h3 _ hs
  have hb : build names (specOf (.deco h c)) = .error .typeError := by
    simp only [build, specOf, findClass, hcls]
    rcases hn with hn | hn | hn | hn | hn <;> simp [hn, b3Class]
  obtain ⟨e, he⟩ := buildAll_err names d _ (get?_mem hg) ⟨_, hb⟩
  exact ⟨e, by simp [load, he]⟩

/-- The nodes that survive a round trip, by class name: the caller's own class of the right kind if `names` has one,
else the composites, the Inverter and the actions that come with b3 — every b3 class except the five decorators with
arguments (`C13_parametrised_decorator_violation`). -/
def Plain (names : String → Option Cls) : T → Prop
  | .leaf h => h.title ≠ "" ∧ (names h.cls = some ⟨.leaf, true⟩ ∨
      names h.cls = none ∧ h.cls ∈ ["Succeeder", "Failer", "Runner", "Error", "Wait"])
  | .comp h _ => h.title ≠ "" ∧ (names h.cls = some ⟨.composite, true⟩ ∨
      names h.cls = none ∧ h.cls ∈ ["Sequence", "Priority", "MemSequence", "MemPriority", "OrNode"])
  | .deco h _ => h.title ≠ "" ∧ (names h.cls = some ⟨.decorator, true⟩ ∨ names h.cls = none ∧ h.cls = "Inverter")
  | .decoEmpty _ => False

/-- C13, partial, in terms of class names: a tree of `Plain` nodes is dumped and loaded without an exception, and the
result is its mirror image. The caller's classes take precedence over those of b3 with the same name. -/
theorem C13_plain_trees_partial (names : String → Option Cls) (t : T) (hc : Consistent t)
    (hl : ∀ s ∈ t.subs, Plain names s) :
    ∃ data l, dump t = .ok data ∧ load names data = .ok l ∧ Rep l.heap l.root t.mirror := by
  refine C13_load_dump_mirror_partial names t hc fun s hs => ?_
  have := hl s hs
  cases s with
  | leaf h =>
    obtain ⟨h1, h2 | ⟨h2, h3⟩⟩ := this
    · exact ⟨by simp [findClass, h2], h1⟩
    · refine ⟨?_, h1⟩
      simp only [List.mem_cons, List.not_mem_nil, or_false] at h3
      rcases h3 with h | h | h | h | h <;> simp only [findClass, h2] <;> rw [h] <;> simp [b3Class]
  | comp h cs =>
    obtain ⟨h1, h2 | ⟨h2, h3⟩⟩ := this
    · exact ⟨by simp [findClass, h2], h1⟩
    · refine ⟨?_, h1⟩
      simp only [List.mem_cons, List.not_mem_nil, or_false] at h3
      rcases h3 with h | h | h | h | h <;> simp only [findClass, h2] <;> rw [h] <;> simp [b3Class]
  | deco h c =>
    obtain ⟨h1, h2 | ⟨h2, h3⟩⟩ := this
    · exact ⟨by simp [findClass, h2], h1⟩
    · exact ⟨by simp only [findClass, h2]; rw [h3]; simp [b3Class], h1⟩
  | decoEmpty h => exact this

/-- Non-vacuity: an Inverter over an OrNode with a `Wait` and a leaf of the caller's own class, which has the name of
a b3 decorator with arguments. -/
example : ∀ s ∈ (T.deco ⟨0, "Inverter", "I", "", ""⟩ (.comp ⟨1, "OrNode", "O", "", ""⟩
      [.leaf ⟨2, "Wait", "w", "", ""⟩, .leaf ⟨3, "Limiter", "l", "", ""⟩])).subs,
    Plain (fun n => if n = "Limiter" then some ⟨.leaf, true⟩ else none) s := by
  intro s hs
  simp only [T.subs, subsL, List.append_nil, List.mem_cons, List.mem_append, List.not_mem_nil, or_false] at hs
  rcases hs with rfl | rfl | rfl | rfl <;> simp [Plain]

/-- Sequence(Failer, Runner). -/
def demoT : T := .comp ⟨0, "Sequence", "Sequence", "", ""⟩
  [.leaf ⟨1, "Failer", "Failer", "", ""⟩, .leaf ⟨2, "Runner", "Runner", "", ""⟩]

theorem demoT_consistent : Consistent demoT := by
  intro a ha b hb h
  simp [demoT, T.subs, subsL] at ha hb
  rcases ha with rfl | rfl | rfl <;> rcases hb with rfl | rfl | rfl <;> simp [T.hdr] at h ⊢

theorem demoT_loadable : ∀ s ∈ demoT.subs, Loadable (fun _ => none) s := by
  intro s hs
  simp [demoT, T.subs, subsL] at hs
  rcases hs with rfl | rfl | rfl <;> simp [Loadable, findClass, b3Class]

/-- C13 is false of the code: the loaded Sequence(Failer, Runner) is Sequence(Runner, Failer) … -/
theorem C13_order_violation : ∃ data l, dump demoT = .ok data ∧ load (fun _ => none) data = .ok l ∧
    ¬ Rep l.heap l.root demoT := by
  obtain ⟨data, l, e1, e2, e3⟩ := C13_load_dump_mirror_partial _ demoT demoT_consistent demoT_loadable
  refine ⟨data, l, e1, e2, fun h => ?_⟩
  have := C13_load_dump_only_symmetric _ demoT demoT_consistent demoT_loadable e1 e2 h
  simp [demoT, T.mirror, mirrors] at this

/-- … which ticks to RUNNING instead of FAILURE. -/
example : (∃ st', exec constEnv 0 (.comp .sequence 0 [.leaf 1 .failure, .leaf 2 .running]) { user := 0 }
      = .ok (.failure, st')) ∧
    (∃ st', exec constEnv 0 (.comp .sequence 0 [.leaf 2 .running, .leaf 1 .failure]) { user := 0 }
      = .ok (.running, st')) :=
  ⟨(ran (fun _ => ()) (a := ()) (by decide +kernel)).imp fun _ h => h.1,
   (ran (fun _ => ()) (a := ()) (by decide +kernel)).imp fun _ h => h.1⟩

end Verif.BT.DumpLoad
