import Verif.Main.Parallel

/-!
# C86: lemmas
-/
namespace Verif.Main.Disk
open Verif.Out

variable {D K S : Type}

/-! ## One process alone -/

theorem alone_add : ∀ (m m' : Nat) (s : Disk × Act), alone (m + m') s = alone m' (alone m s)
  | 0, m', s => by rw [Nat.zero_add]; rfl
  | m + 1, m', s => by
    rw [Nat.add_right_comm]
    exact alone_add m m' _

theorem alone_ended : ∀ (m : Nat) (d : Disk) (e : Option Stop), alone m (d, .ended e) = (d, .ended e)
  | 0, _, _ => rfl
  | m + 1, d, e => alone_ended m d e

theorem putAt_end (t : Text) (c : Char) : putAt t t.length c = t ++ [c] := by simp [putAt]

theorem alone_puts (p : Path) (k : Act) : ∀ (j : Nat) (t1 t2 : Text) (d : Disk), j ≤ t2.length →
    alone j (d.set p t1, puts p t1.length t2 k) = (d.set p (t1 ++ t2.take j), puts p (t1.length + j) (t2.drop j) k)
  | 0, t1, t2, d, _ => by simp [alone]
  | j + 1, t1, [], d, h => absurd h (by simp)
  | j + 1, t1, c :: t2, d, h => by
    have e : step (d.set p t1) (puts p t1.length (c :: t2) k) = (d.set p (t1 ++ [c]), puts p (t1 ++ [c]).length t2 k) := by
      simp only [puts, step, set_get, Option.getD_some, putAt_end, set_set, List.length_append, List.length_cons, List.length_nil]
    show alone j (step _ _) = _
    rw [e, alone_puts p k j (t1 ++ [c]) t2 d (by simpa using h)]
    simp [Nat.add_assoc, Nat.add_comm 1 j]

/-- (proof) The states a process passes while it writes a file. -/
theorem alone_save (p : Path) (t : Text) (b : Bool) (k : Act) (d : Disk) :
    (∀ j, j ≤ t.length → (alone (j + 1) (d, saveA p (t, b) k)).1 = d.set p (t.take j)) ∧
    (∀ m, alone (t.length + 1 + m) (d, saveA p (t, b) k) = alone m (d.set p t, if b then .ended (some .raised) else k)) := by
  have h : ∀ j, j ≤ t.length → alone (j + 1) (d, saveA p (t, b) k) =
      (d.set p (t.take j), puts p j (t.drop j) (if b then .ended (some .raised) else k)) := fun j hj => by
    have := alone_puts p (if b then .ended (some .raised) else k) j [] t d hj
    simp only [List.length_nil, List.nil_append, Nat.zero_add] at this
    exact this
  refine ⟨fun j hj => by rw [h j hj], fun m => ?_⟩
  rw [alone_add, h t.length (Nat.le_refl _)]
  simp [puts]

/-- (proof) the disks that occur while a process runs -/
def Trace (d : Disk) (a : Act) (x : Disk) : Prop := ∃ m, (alone m (d, a)).1 = x

/-- (proof) the disks that occur while a plan is played -/
def PT (d : Disk) (l : List (Path × Text × Bool)) (x : Disk) : Prop := ∃ k lost, play lost l k d = x

theorem trace_save (p : Path) (t : Text) (b : Bool) (k : Act) (d x : Disk) :
    Trace d (saveA p (t, b) k) x ↔ x = d ∨ (∃ j, j ≤ t.length ∧ x = d.set p (t.take j)) ∨ (b = false ∧ Trace (d.set p t) k x) := by
  obtain ⟨h1, h2⟩ := alone_save p t b k d
  constructor
  · rintro ⟨m, rfl⟩
    cases m with
    | zero => exact .inl rfl
    | succ j =>
      by_cases hj : j ≤ t.length
      · exact .inr (.inl ⟨j, hj, h1 j hj⟩)
      · obtain ⟨m, rfl⟩ : ∃ m, j = t.length + m := ⟨j - t.length, by omega⟩
        rw [Nat.add_right_comm, h2]
        cases b
        · exact .inr (.inr ⟨rfl, m, rfl⟩)
        · refine .inr (.inl ⟨t.length, Nat.le_refl _, ?_⟩)
          simp [alone_ended]
  · rintro (rfl | ⟨j, hj, rfl⟩ | ⟨rfl, m, rfl⟩)
    · exact ⟨0, rfl⟩
    · exact ⟨j + 1, h1 j hj⟩
    · exact ⟨t.length + 1 + m, by rw [h2]; simp⟩

theorem pt_cons (p : Path) (t : Text) (b : Bool) (l : List (Path × Text × Bool)) (d x : Disk) :
    PT d ((p, t, b) :: l) x ↔ x = d ∨ (∃ j, j ≤ t.length ∧ x = d.set p (t.take j)) ∨ (b = false ∧ PT (d.set p t) l x) := by
  constructor
  · rintro ⟨k, lost, rfl⟩
    rw [play_cons]
    have hb : b = true → ∃ j, j ≤ t.length ∧ d.set p t = d.set p (t.take j) := fun _ => ⟨t.length, Nat.le_refl _, by simp⟩
    match k with
    | none =>
      cases b
      · exact .inr (.inr ⟨rfl, none, lost, rfl⟩)
      · exact .inr (.inl (hb rfl))
    | some 0 => exact .inl rfl
    | some 1 => exact .inr (.inl ⟨0, Nat.zero_le _, by simp⟩)
    | some 2 => exact .inr (.inl ⟨t.length - lost, Nat.sub_le _ _, rfl⟩)
    | some (k + 3) =>
      cases b
      · exact .inr (.inr ⟨rfl, some k, lost, rfl⟩)
      · exact .inr (.inl (hb rfl))
  · rintro (rfl | ⟨j, hj, rfl⟩ | ⟨rfl, k, lost, rfl⟩)
    · exact ⟨some 0, 0, rfl⟩
    · refine ⟨some 2, t.length - j, ?_⟩
      rw [play_cons]
      dsimp only
      rw [Nat.sub_sub_self hj]
    · cases k with
      | none => exact ⟨none, lost, rfl⟩
      | some k => exact ⟨some (k + 3), lost, rfl⟩

/-- (proof) The process does what the plan says. -/
def Same (d : Disk) (a : Act) (l : List (Path × Text × Bool)) : Prop :=
  (∀ x, Trace d a x ↔ PT d l x) ∧ ∃ m e, alone m (d, a) = (play 0 l none d, .ended e)

theorem same_ended (d : Disk) (e : Option Stop) : Same d (.ended e) [] := by
  refine ⟨fun x => ⟨?_, ?_⟩, 0, e, rfl⟩
  · rintro ⟨m, rfl⟩; exact ⟨none, 0, by rw [alone_ended]; rfl⟩
  · rintro ⟨k, lost, rfl⟩; exact ⟨0, rfl⟩

theorem pt_self : ∀ (d : Disk) (l : List (Path × Text × Bool)), PT d l d
  | _, [] => ⟨none, 0, rfl⟩
  | _, (_, _, _) :: _ => ⟨some 0, 0, rfl⟩

theorem same_look {d : Disk} {p : Path} {k : Option Text → Act} {l : List (Path × Text × Bool)} (h : Same d (k (d p)) l) : Same d (.look p k) l := by
  obtain ⟨h1, m, e, h2⟩ := h
  refine ⟨fun x => ⟨?_, fun hx => ?_⟩, m + 1, e, h2⟩
  · rintro ⟨m, rfl⟩
    cases m with
    | zero => exact pt_self _ _
    | succ m => exact (h1 _).1 ⟨m, rfl⟩
  · obtain ⟨m, hm⟩ := (h1 x).2 hx
    exact ⟨m + 1, hm⟩

theorem same_save {d : Disk} {p : Path} {t : Text} {b : Bool} {k : Act} {l : List (Path × Text × Bool)} (h : b = false → Same (d.set p t) k l) :
    Same d (saveA p (t, b) k) ((p, t, b) :: l) := by
  refine ⟨fun x => ?_, ?_⟩
  · rw [trace_save, pt_cons]
    refine or_congr Iff.rfl (or_congr Iff.rfl (and_congr_right fun hb => (h hb).1 x))
  · cases b
    · obtain ⟨_, m, e, hm⟩ := h rfl
      refine ⟨t.length + 1 + m, e, ?_⟩
      rw [(alone_save p t false k d).2]
      exact hm
    · refine ⟨t.length + 1 + 0, some .raised, ?_⟩
      rw [(alone_save p t true k d).2]
      rfl

/-! ## The structure of the programs -/

/-- (proof) A process that reads files of `fix` only, as they are on `d0`, and writes the files of a plan. -/
inductive Follows (d0 : Disk) (fix : Path → Prop) : Act → List (Path × Text × Bool) → Prop
  | ended (e) : Follows d0 fix (.ended e) []
  | look {p k l} : fix p → Follows d0 fix (k (d0 p)) l → Follows d0 fix (.look p k) l
  | save {p t b k l} : Follows d0 fix k l → Follows d0 fix (saveA p (t, b) k) ((p, t, b) :: l)

theorem Follows.mono {d0 d1 : Disk} {fix fix' : Path → Prop} (hf : ∀ p, fix p → fix' p ∧ d0 p = d1 p) {a : Act} {l : List (Path × Text × Bool)}
    (h : Follows d0 fix a l) : Follows d1 fix' a l := by
  induction h with
  | ended e => exact .ended e
  | @look p k l hp _ ih =>
    refine .look (hf _ hp).1 ?_
    rw [← (hf _ hp).2]
    exact ih
  | save _ ih => exact .save ih

theorem Follows.same {d0 : Disk} {fix : Path → Prop} {a : Act} {l : List (Path × Text × Bool)} (h : Follows d0 fix a l) :
    ∀ d : Disk, (∀ p, fix p → d p = d0 p) → (∀ p ∈ l.map (·.1), ¬ fix p) → Same d a l := by
  induction h with
  | ended e => intro d _ _; exact same_ended d e
  | @look p k l hp _ ih =>
    intro d hd hl
    refine same_look ?_
    rw [hd _ hp]
    exact ih d hd hl
  | @save p t b k l _ ih =>
    intro d hd hl
    refine same_save fun _ => ih _ (fun q hq => ?_) fun q hq => hl q (by simp only [List.map_cons, List.mem_cons]; exact .inr hq)
    have : q ≠ p := fun e => hl p (by simp) (e ▸ hq)
    rw [set_other _ _ this]
    exact hd q hq

/-- (proof) the process after it has looked for the pickle -/
def body (P : Prog D K S) (c : Cmd D) : Option Text → Act :=
  let k : K → D → Act := fun x e => if P.same x e then
      (if c.solver then (match P.solve x e with
        | none => .ended (some .raised)
        | some r => reportA (ikTexFile c.name) (P.tex r) (saveA (ikPyFile c.name) (P.py r) (saveA (cppFile c.name) (P.cpp r) (.ended none))))
      else saveA (fkPyFile c.name) (P.fkpy x e) (reportA (fkTexFile c.name) (P.fktex x e) (.ended none)))
    else .ended (some .quit)
  fun
  | some t => match P.load t with
    | none => .ended (some .raised)
    | some x => k x c.desc
  | none => saveA (pickleFile c.name) (P.dump (P.fk c.desc), false) (k (P.fk c.desc) (P.grown c.desc))

theorem start_eq (P : Prog D K S) (c : Cmd D) : start P c = .look (pickleFile c.name) (body P c) := by
  obtain ⟨s, n, e⟩ := c
  cases s <;> rfl

/-- (proof) the templates -/
def Tmpl (p : Path) : Prop := p = preambleFile ∨ p = closeFile

/-- (proof) what a report writes -/
def reportL (d : Disk) (p : Path) (make : Text → Text → Option Text) (l : List (Path × Text × Bool)) : List (Path × Text × Bool) :=
  match d preambleFile, d closeFile with
  | some a, some b => match make a b with
    | some t => (p, t, false) :: l
    | none => []
  | _, _ => []

theorem follows_report {d0 : Disk} (p : Path) (make : Text → Text → Option Text) {k : Act} {l : List (Path × Text × Bool)} (h : Follows d0 Tmpl k l) :
    Follows d0 Tmpl (reportA p make k) (reportL d0 p make l) := by
  unfold reportA reportL
  refine .look (.inl rfl) ?_
  cases h1 : d0 preambleFile with
  | none => exact .ended _
  | some a =>
    refine .look (.inr rfl) ?_
    cases h2 : d0 closeFile with
    | none => exact .ended _
    | some b =>
      dsimp only
      cases h3 : make a b with
      | none => exact .ended _
      | some t => exact .save h

theorem rest_eq (P : Prog D K S) (d : Disk) (solver : Bool) (n : Text) (k : K) (e : D) :
    rest P d solver n k e = if P.same k e then
      (if solver then (match P.solve k e with
        | none => []
        | some r => reportL d (ikTexFile n) (P.tex r) [(ikPyFile n, P.py r), (cppFile n, P.cpp r)])
      else (fkPyFile n, P.fkpy k e) :: reportL d (fkTexFile n) (P.fktex k e) []) else [] := rfl

theorem follows_body (P : Prog D K S) (c : Cmd D) (d0 : Disk) :
    Follows d0 Tmpl (body P c (d0 (pickleFile c.name))) (plan P d0 c.solver c.name c.desc) := by
  have hk : ∀ (x : K) (e : D), Follows d0 Tmpl (if P.same x e then
      (if c.solver then (match P.solve x e with
        | none => .ended (some .raised)
        | some r => reportA (ikTexFile c.name) (P.tex r) (saveA (ikPyFile c.name) (P.py r) (saveA (cppFile c.name) (P.cpp r) (.ended none))))
      else saveA (fkPyFile c.name) (P.fkpy x e) (reportA (fkTexFile c.name) (P.fktex x e) (.ended none)))
    else .ended (some .quit)) (rest P d0 c.solver c.name x e) := by
    intro x e
    rw [rest_eq]
    by_cases hs : P.same x e = true
    · simp only [hs, if_true]
      cases c.solver
      · simp only [Bool.false_eq_true, if_false]
        exact .save (follows_report _ _ (.ended _))
      · simp only [if_true]
        cases P.solve x e with
        | none => exact .ended _
        | some r => exact follows_report _ _ (.save (.save (.ended _)))
    · simp only [hs, Bool.false_eq_true, if_false]
      exact .ended _
  unfold body plan
  cases hp : d0 (pickleFile c.name) with
  | none => exact .save (hk _ _)
  | some t =>
    dsimp only
    cases P.load t with
    | none => exact .ended _
    | some x => exact hk _ _

theorem plan_not_tmpl (P : Prog D K S) (d : Disk) (c : Cmd D) : ∀ p ∈ (plan P d c.solver c.name c.desc).map (·.1), ¬ Tmpl p := fun p hp ht =>
  template_not_file ht c.solver c.name ((plan_sub P d c.solver c.name c.desc).subset hp)

theorem same_start (P : Prog D K S) (c : Cmd D) (d : Disk) : Same d (start P c) (plan P d c.solver c.name c.desc) := by
  rw [start_eq]
  exact same_look ((follows_body P c d).same d (fun _ _ => rfl) (plan_not_tmpl P d c))

/-! ## Several processes that do not touch each other's files -/

/-- (proof) A process that reads files of `fix` (as on `d0`) and of `V`, and writes files of `W`. -/
inductive Within (d0 : Disk) (fix V W : Path → Prop) : Act → Prop
  | ended (e) : Within d0 fix V W (.ended e)
  | lookFix {p k} : fix p → Within d0 fix V W (k (d0 p)) → Within d0 fix V W (.look p k)
  | lookOwn {p k} : V p → (∀ v, Within d0 fix V W (k v)) → Within d0 fix V W (.look p k)
  | trunc {p k} : W p → Within d0 fix V W k → Within d0 fix V W (.trunc p k)
  | put {p i c k} : W p → Within d0 fix V W k → Within d0 fix V W (.put p i c k)

theorem Within.step {d0 : Disk} {fix V W : Path → Prop} {a : Act} (h : Within d0 fix V W a) {d : Disk} (hd : ∀ p, fix p → d p = d0 p) :
    Within d0 fix V W (step d a).2 ∧ ∀ p, ¬ W p → (Disk.step d a).1 p = d p := by
  cases h with
  | ended e => exact ⟨.ended e, fun _ _ => rfl⟩
  | @lookFix q k hp hk => refine ⟨?_, fun _ _ => rfl⟩; show Within d0 fix V W (k (d q)); rw [hd _ hp]; exact hk
  | lookOwn hp hk => exact ⟨hk _, fun _ _ => rfl⟩
  | trunc hp hk => exact ⟨hk, fun p hn => set_other _ _ fun e => hn (e ▸ hp)⟩
  | put hp hk => exact ⟨hk, fun p hn => set_other _ _ fun e => hn (e ▸ hp)⟩

theorem within_puts {d0 : Disk} {fix V W : Path → Prop} {p : Path} (hp : W p) {k : Act} (hk : Within d0 fix V W k) :
    ∀ (t : Text) (i : Nat), Within d0 fix V W (puts p i t k)
  | [], _ => hk
  | _ :: t, i => .put hp (within_puts hp hk t (i + 1))

theorem Follows.within {d0 : Disk} {fix V W : Path → Prop} {a : Act} {l : List (Path × Text × Bool)} (h : Follows d0 fix a l) :
    (∀ p ∈ l.map (·.1), W p) → Within d0 fix V W a := by
  induction h with
  | ended e => intro _; exact .ended e
  | look hp _ ih => intro hl; exact .lookFix hp (ih hl)
  | @save p t b k l _ ih =>
    intro hl
    have hp : W p := hl p (by simp)
    refine .trunc hp (within_puts hp ?_ _ _)
    cases b
    · exact ih fun q hq => hl q (by simp only [List.map_cons, List.mem_cons]; exact .inr hq)
    · exact .ended _

/-- (proof) Two disks that agree where a process reads: it does the same on both. -/
theorem Within.congr {d0 : Disk} {fix V W : Path → Prop} {a : Act} (h : Within d0 fix V W a) {d d' : Disk} (hd : ∀ p, fix p → d p = d0 p)
    (hd' : ∀ p, fix p → d' p = d0 p) (hv : ∀ p, V p → d p = d' p) :
    (Disk.step d a).2 = (Disk.step d' a).2 ∧ ∀ p, V p → (Disk.step d a).1 p = (Disk.step d' a).1 p := by
  cases h with
  | ended e => exact ⟨rfl, hv⟩
  | @lookFix p k hp hk => refine ⟨?_, hv⟩; show k (d p) = k (d' p); rw [hd _ hp, hd' _ hp]
  | @lookOwn p k hp hk => refine ⟨?_, hv⟩; show k (d p) = k (d' p); rw [hv _ hp]
  | @trunc p k hp hk => exact ⟨rfl, fun q hq => set_congr p _ (hv q hq)⟩
  | @put p i c k hp hk =>
    refine ⟨rfl, fun q hq => ?_⟩
    show d.set p _ q = d'.set p _ q
    by_cases e : q = p
    · subst e
      rw [hv q hq, set_get, set_get]
    · rw [set_other _ _ e, set_other _ _ e]; exact hv q hq

theorem together_alone {d0 : Disk} {fix : Path → Prop} {V W : Nat → Path → Prop} (i : Nat) (hfix : ∀ j p, W j p → ¬ fix p) :
    ∀ (who : List Nat) (d di : Disk) (as : Nat → Act), (∀ j, Within d0 fix (V j) (W j) (as j)) → (∀ j ∈ who, j ≠ i → ∀ p, V i p → ¬ W j p) →
    (∀ p, fix p → d p = d0 p) → (∀ p, fix p → di p = d0 p) → (∀ p, V i p → d p = di p) →
    (together who (d, as)).2 i = (alone (who.count i) (di, as i)).2 ∧
    (∀ p, V i p → (together who (d, as)).1 p = (alone (who.count i) (di, as i)).1 p) ∧
    (∀ p, fix p → (together who (d, as)).1 p = d0 p ∧ (alone (who.count i) (di, as i)).1 p = d0 p)
  | [], d, di, as, _, _, h1, h2, h3 => ⟨rfl, h3, fun p hp => ⟨h1 p hp, h2 p hp⟩⟩
  | j :: who, d, di, as, hw, hdis, h1, h2, h3 => by
    obtain ⟨s1, s2⟩ := (hw j).step h1
    have hw' : ∀ j', Within d0 fix (V j') (W j') (if j' = j then (step d (as j)).2 else as j') := fun j' => by
      by_cases e : j' = j
      · rw [if_pos e, e]; exact s1
      · rw [if_neg e]; exact hw j'
    have hd' : ∀ p, fix p → (step d (as j)).1 p = d0 p := fun p hp => by rw [s2 p fun h => hfix j p h hp]; exact h1 p hp
    have hdis' : ∀ j' ∈ who, j' ≠ i → ∀ p, V i p → ¬ W j' p := fun j' hj' => hdis j' (by simp [hj'])
    by_cases e : j = i
    · subst e
      obtain ⟨c1, c2⟩ := (hw j).congr h1 h2 h3
      obtain ⟨_, s2'⟩ := (hw j).step h2
      have := together_alone j hfix who (step d (as j)).1 (step di (as j)).1 (fun j' => if j' = j then (step d (as j)).2 else as j') hw' hdis' hd'
        (fun p hp => by rw [s2' p fun h => hfix j p h hp]; exact h2 p hp) c2
      simp only [if_true] at this
      have e : alone (who.count j) ((step di (as j)).1, (step d (as j)).2) = alone (who.count j) (step di (as j)) := by rw [c1]
      rw [e] at this
      rw [List.count_cons_self]
      exact this
    · have := together_alone i hfix who (step d (as j)).1 di (fun j' => if j' = j then (step d (as j)).2 else as j') hw' hdis' hd' h2
        (fun p hp => by rw [s2 p (hdis j (by simp) e p hp)]; exact h3 p hp)
      simp only [if_neg (Ne.symm e)] at this
      rw [List.count_cons_of_ne e]
      exact this

end Verif.Main.Disk
