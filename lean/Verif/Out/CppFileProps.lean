import Verif.Out.CppFile
/-!
# C65: the generated C++ function assigns only variables that it declares

The file is read back as text, by a small reader of C++ lines that knows nothing of how the file was made.
-/
namespace Verif.Out
open Verif.Leaf Verif.Sol

/-! ## The reader -/

/-- a line without its comment -/
def beforeComment : Text → Text
  | [] => []
  | c :: cs => if c = '/' ∧ cs.head? = some '/' then [] else c :: beforeComment cs

/-- the parts between commas -/
def commas : Text → List Text
  | [] => [[]]
  | c :: cs => if c = ',' then [] :: commas cs else
    match commas cs with
    | [] => [[c]]
    | l :: ls => (c :: l) :: ls

/-- what follows `double ` or `int ` at the beginning of a line -/
def declBody (s : Text) : Text :=
  if "double ".toList <+: s then s.drop 7 else if "int ".toList <+: s then s.drop 4 else []

/-- the names that a line `double a, b;`, `double a = …;` or `int a = …;` declares -/
def declares (l : Text) : List Text :=
  let body := declBody (beforeComment l)
  if ';' ∈ body then (commas (body.takeWhile (· != ';'))).map fun p => (p.dropWhile (· == ' ')).takeWhile isW else []

/-- the name that a line `a = …` assigns -/
def assigns (l : Text) : List Text :=
  let s := beforeComment l
  let x := s.takeWhile isW
  if x ≠ [] ∧ " = ".toList <+: s.drop x.length then [x] else []

/-- the lines after the head of the function `ikin` -/
def ikinLines (ls : List Text) : List Text := (ls.dropWhile (· ≠ ikinHead)).tail

def declared (ls : List Text) : List Text := (ikinLines ls).flatMap declares
def assigned (ls : List Text) : List Text := (ikinLines ls).flatMap assigns

/-- the lines of the file, without their indentation -/
def printed (ops : List Op) : List Text := (emit 0 ops).1.map (·.2)

/-- a C++ name (digits first are not excluded) -/
def Ident (x : Text) : Prop := x ≠ [] ∧ ∀ c ∈ x, isW c = true

/-- the variables that every generated function declares -/
def fixedNames : List Text := ["r_11", "r_12", "r_13", "r_21", "r_22", "r_23", "r_31", "r_32", "r_33", "Px", "Py", "Pz", "argument", "True",
  "False", "solvable_pose"].map String.toList

/-! ## What `cpp_output.line` leaves as it is -/

def opText : Op → Text
  | .line t => cppLine t
  | .asgn a b => cppLine (a ++ " = ".toList ++ b ++ ";".toList)
  | .push => "{".toList
  | .pop => "}".toList

theorem printed_eq (ops : List Op) : printed ops = ops.map opText := by
  unfold printed
  have : ∀ (ops : List Op) lv, (emit lv ops).1.map (·.2) = ops.map opText := by
    intro ops
    induction ops with
    | nil => intro lv; rfl
    | cons o ops ih => intro lv; cases o <;> simp only [emit, List.map_cons, ih, opText]
  exact this ops 0

theorem hasPow_false {t : Text} (h : '*' ∉ t) : hasPow t = false := by
  induction t with
  | nil => rfl
  | cons c t ih =>
    have hc : c ≠ '*' := fun e => h (by simp [e])
    have ht := ih fun hm => h (by simp [hm])
    unfold hasPow
    split
    · rename_i he; cases he; exact absurd rfl hc
    · rename_i he; cases he; exact ht
    · rfl

theorem cppLine_same {t : Text} (h : '*' ∉ t) : cppLine t = t := by rw [cppLine, hasPow_false h]; rfl

theorem sub1_prefix {p : Text} (h1 : '*' ∉ p) : ∀ (run : Text) (c : Char) (r : Text), isW c = false → c ≠ '*' →
    sub1 run (p ++ c :: r) = run ++ p ++ c :: sub1 [] r := by
  have one : ∀ (run : Text) (c : Char) (r : Text), c ≠ '*' → sub1 run (c :: r) = if isW c then sub1 (run ++ [c]) r else run ++ c :: sub1 [] r := by
    intro run c r hc
    rw [sub1]
    rintro _ rfl; exact absurd rfl hc
  induction p with
  | nil => intro run c r hc hs; rw [List.nil_append, one run c r hs]; simp [hc]
  | cons d p ih =>
    intro run c r hc hs
    have hd : d ≠ '*' := fun e => h1 (by simp [e])
    rw [List.cons_append, one _ _ _ hd]
    have ih := ih (fun hm => h1 (by simp [hm]))
    cases isW d with
    | true => rw [if_pos rfl, ih _ _ _ hc hs]; simp
    | false => rw [if_neg (by simp), ih _ _ _ hc hs]; simp

theorem m2_early {p r : Text} {c : Char} (hp : '(' ∉ p) (hc : isLo c = false) (hc' : c ≠ '(') : m2 (p ++ c :: r) = none := by
  have hl : isLo '(' = false := by decide
  match p with
  | [] => unfold m2; split
          · rename_i he; simp at he; rw [← he.1, hc]; simp
          · rfl
  | [x] => unfold m2; split
           · rename_i he; simp at he; rw [← he.2.1, hc]; simp
           · rfl
  | [x, y] => unfold m2; split
              · rename_i he; simp at he; rw [← he.2.2.1, hc]; simp
              · rfl
  | [x, y, z] => unfold m2; split
                 · rename_i he; simp at he; exact absurd he.2.2.2.1 hc'
                 · rfl
  | x :: y :: z :: w :: p => unfold m2; split
                             · rename_i he; simp at he; simp [he.2.2.2.1] at hp
                             · rfl

theorem sub2_prefix {p : Text} {c : Char} (hp : '(' ∉ p) (hc : isLo c = false) (hc' : c ≠ '(') (r : Text) :
    sub2 0 (p ++ c :: r) = p ++ c :: sub2 0 r := by
  induction p with
  | nil =>
    have := m2_early (p := []) (r := r) hp hc hc'
    rw [List.nil_append] at this ⊢
    rw [sub2, this]; rfl
  | cons d p ih =>
    have := m2_early (r := r) hp hc hc'
    rw [List.cons_append] at this ⊢
    rw [sub2, this, ih fun h => hp (by simp [h])]; rfl

/-- the beginning of a line, up to a character that is not part of a word, is not changed -/
theorem cppLine_prefix {p : Text} {c : Char} (h1 : '*' ∉ p) (h2 : '(' ∉ p) (hc : isW c = false) (hs : c ≠ '*') (hb : c ≠ '(') (r : Text) :
    ∃ r', cppLine (p ++ c :: r) = p ++ c :: r' := by
  have hlo : isLo c = false := by
    simp only [isLo]
    cases hl : c.isLower with
    | false => rfl
    | true => simp [isW, Char.isAlphanum, Char.isAlpha, hl] at hc
  unfold cppLine
  split
  · rw [sub1_prefix h1 [] c r hc hs, List.nil_append, sub2_prefix h2 hlo hb]; exact ⟨_, rfl⟩
  · exact ⟨r, rfl⟩

/-! ## Lines -/

theorem beforeComment_prefix {p : Text} (h : '/' ∉ p) (r : Text) : beforeComment (p ++ r) = p ++ beforeComment r := by
  induction p with
  | nil => rfl
  | cons c p ih =>
    have hc : c ≠ '/' := fun e => h (by simp [e])
    rw [List.cons_append, beforeComment, if_neg (fun hh => hc hh.1), ih fun hm => h (by simp [hm])]; rfl

theorem beforeComment_same {p : Text} (h : '/' ∉ p) : beforeComment p = p := by
  have := beforeComment_prefix h []
  rwa [show beforeComment [] = [] from rfl, List.append_nil] at this

theorem declares_comment (t : Text) : declares (cppLine ('/' :: '/' :: t)) = [] ∧ assigns (cppLine ('/' :: '/' :: t)) = [] := by
  obtain ⟨r', h⟩ := cppLine_prefix (p := ['/']) (c := '/') (by decide) (by decide) (by decide) (by decide) (by decide) t
  rw [List.singleton_append, List.singleton_append] at h
  have hb : beforeComment ('/' :: '/' :: r') = [] := by rw [beforeComment, if_pos ⟨rfl, rfl⟩]
  rw [h]
  constructor
  · rw [declares, hb]; rfl
  · rw [assigns, hb]; rfl

theorem Ident.no {x : Text} (h : Ident x) {c : Char} (hc : isW c = false) : c ∉ x := fun hm => by rw [h.2 c hm] at hc; cases hc

theorem word_unique {a b r s : Text} (ha : ' ' ∉ a) (hb : ' ' ∉ b) (h : a ++ ' ' :: r = b ++ ' ' :: s) : a = b := by
  induction a generalizing b with
  | nil =>
    cases b with
    | nil => rfl
    | cons c b => simp at h; exact absurd h.1 (fun e => hb (by simp [← e]))
  | cons c a ih =>
    cases b with
    | nil => simp at h; exact absurd h.1 (fun e => ha (by simp [e]))
    | cons d b =>
      simp only [List.cons_append, List.cons.injEq] at h
      rw [h.1, ih (fun hm => ha (by simp [hm])) (fun hm => hb (by simp [hm])) h.2]

theorem takeWhile_ident {x : Text} (h : ∀ c ∈ x, isW c = true) {c : Char} (hc : isW c = false) (r : Text) : (x ++ c :: r).takeWhile isW = x := by
  induction x with
  | nil => simp [hc]
  | cons d x ih => simp [h d (by simp), ih fun c hc => h c (by simp [hc])]

/-- an assignment declares nothing and assigns its left side -/
theorem cline_asgn {x : Text} (hx : Ident x) (hk : x ≠ "double".toList ∧ x ≠ "int".toList) (r : Text) :
    declares (cppLine (x ++ " = ".toList ++ r)) = [] ∧ assigns (cppLine (x ++ " = ".toList ++ r)) = [x] := by
  have e : " = ".toList = [' ', '=', ' '] := by decide
  have hp : x ++ " = ".toList ++ r = (x ++ [' ', '=']) ++ ' ' :: r := by rw [e]; simp
  obtain ⟨r', h⟩ := cppLine_prefix (p := x ++ [' ', '=']) (c := ' ') (by simp [hx.no (c := '*') (by decide)])
    (by simp [hx.no (c := '(') (by decide)]) (by decide) (by decide) (by decide) r
  rw [hp, h]
  have hb : beforeComment ((x ++ [' ', '=']) ++ ' ' :: r') = x ++ ' ' :: '=' :: ' ' :: beforeComment r' := by
    rw [show (x ++ [' ', '=']) ++ ' ' :: r' = (x ++ [' ', '=', ' ']) ++ r' by simp, beforeComment_prefix (by simp [hx.no (c := '/') (by decide)])]
    simp
  constructor
  · have hd : ∀ w : Text, ' ' ∉ w → w ≠ x → ¬ (w ++ [' '] <+: x ++ ' ' :: '=' :: ' ' :: beforeComment r') := by
      rintro w hw hne ⟨t, ht⟩
      exact hne (word_unique hw (hx.no (by decide)) (by simpa using ht))
    rw [declares, hb]
    rw [declBody, if_neg (show ¬ "double ".toList <+: _ from hd "double".toList (by decide) (Ne.symm hk.1)),
      if_neg (show ¬ "int ".toList <+: _ from hd "int".toList (by decide) (Ne.symm hk.2))]
    rfl
  · rw [assigns, hb]
    rw [takeWhile_ident hx.2 (by decide), if_pos]
    refine ⟨hx.1, ?_⟩
    rw [List.drop_left, e]
    exact ⟨beforeComment r', rfl⟩

/-- an assignment to an element of the array assigns no name -/
theorem line_elem (r : Text) : declares (cppLine ("solution_list[".toList ++ r)) = [] ∧ assigns (cppLine ("solution_list[".toList ++ r)) = [] := by
  have e : "solution_list[".toList = "solution_list".toList ++ ['['] := by decide
  obtain ⟨r', h⟩ := cppLine_prefix (p := "solution_list".toList) (c := '[') (by decide) (by decide) (by decide) (by decide) (by decide) r
  rw [e, List.append_assoc, List.singleton_append, h]
  have hb : beforeComment ("solution_list".toList ++ '[' :: r') = "solution_list".toList ++ '[' :: beforeComment r' := by
    rw [show "solution_list".toList ++ '[' :: r' = ("solution_list".toList ++ ['[']) ++ r' by simp, beforeComment_prefix (by decide)]
    simp
  constructor
  · rw [declares, hb]
    rfl
  · rw [assigns, hb]
    rw [takeWhile_ident (by decide) (by decide), if_neg]
    rw [List.drop_left]
    rintro ⟨_, t, ht⟩
    have e : " = ".toList = [' ', '=', ' '] := by decide
    rw [e] at ht
    simp at ht

/-! ## Declarations -/

theorem commas_cons {v r : Text} (hv : ',' ∉ v) : commas (v ++ ',' :: r) = v :: commas r := by
  induction v with
  | nil => simp [commas]
  | cons c v ih =>
    rw [List.cons_append, commas, if_neg (fun e => hv (by simp [e])), ih fun hm => hv (by simp [hm])]

theorem commas_one {v : Text} (hv : ',' ∉ v) : commas v = [v] := by
  induction v with
  | nil => rfl
  | cons c v ih =>
    rw [commas, if_neg (fun e => hv (by simp [e])), ih fun hm => hv (by simp [hm])]

theorem commas_list : ∀ (vars : List Text), vars ≠ [] → (∀ v ∈ vars, ',' ∉ v) →
    commas ((vars.flatMap fun v => ' ' :: v ++ [',']).dropLast) = vars.map (' ' :: ·)
  | [], h, _ => absurd rfl h
  | [v], _, hv => by
    have hv := hv v (by simp)
    have : ([v].flatMap fun v => ' ' :: v ++ [',']).dropLast = ' ' :: v := by
      simp only [List.flatMap_cons, List.flatMap_nil, List.append_nil]
      rw [show (' ' :: v) ++ [','] = (' ' :: v) ++ [','] from rfl, List.dropLast_concat]
    rw [this, commas_one (by simp [hv])]; rfl
  | v :: w :: vs, _, hv => by
    have hne : ((w :: vs).flatMap fun v => ' ' :: v ++ [',']) ≠ [] := by simp
    rw [List.flatMap_cons, List.dropLast_append_of_ne_nil hne]
    rw [show (' ' :: v ++ [',']) ++ ((w :: vs).flatMap fun v => ' ' :: v ++ [',']).dropLast =
      (' ' :: v) ++ ',' :: ((w :: vs).flatMap fun v => ' ' :: v ++ [',']).dropLast by simp]
    rw [commas_cons (by simpa using hv v (by simp)), commas_list (w :: vs) (by simp) (fun x hx => hv x (by simp [hx]))]
    rfl

theorem read_name {v : Text} (hv : Ident v) : ((' ' :: v).dropWhile (· == ' ')).takeWhile isW = v := by
  have h1 : (' ' :: v).dropWhile (· == ' ') = v := by
    rw [List.dropWhile_cons, if_pos (by decide)]
    cases v with
    | nil => rfl
    | cons c v =>
      rw [List.dropWhile_cons, if_neg]
      have := hv.2 c (by simp)
      simp only [beq_iff_eq]; rintro rfl; exact absurd this (by decide)
  rw [h1]
  have : ∀ (l : Text), (∀ c ∈ l, isW c = true) → l.takeWhile isW = l := by
    intro l
    induction l with
    | nil => intro _; rfl
    | cons c l ih => intro h; rw [List.takeWhile_cons, if_pos (h c (by simp)), ih fun d hd => h d (by simp [hd])]
  exact this v hv.2

theorem body_chars {vars : List Text} (hv : ∀ v ∈ vars, Ident v) {c : Char} (hc : isW c = false) (h1 : c ≠ ' ') (h2 : c ≠ ',') :
    c ∉ (vars.flatMap fun v => ' ' :: v ++ [',']).dropLast := by
  intro h
  have h := List.dropLast_subset _ h
  obtain ⟨v, hvm, h⟩ := List.mem_flatMap.1 h
  simp only [List.cons_append, List.mem_cons, List.mem_append, List.not_mem_nil, or_false] at h
  rcases h with h | h | h
  · exact h1 h
  · exact (hv v hvm).no hc h
  · exact h2 h

theorem declBody_double (r : Text) : declBody ("double ".toList ++ r) = r := by
  rw [declBody, if_pos ⟨r, rfl⟩]
  exact List.drop_left (l₁ := "double ".toList)

/-- the declaration of the variables declares them -/
theorem line_varDecl {vars : List Text} (hne : vars ≠ []) (hv : ∀ v ∈ vars, Ident v) :
    declares (cppLine (varDecl vars)) = vars ∧ assigns (cppLine (varDecl vars)) = [] := by
  obtain ⟨b, hb⟩ : ∃ b, (vars.flatMap fun v => ' ' :: v ++ [',']).dropLast = b := ⟨_, rfl⟩
  have hbne : (vars.flatMap fun v => ' ' :: v ++ [',']) ≠ [] := by
    cases vars with
    | nil => exact absurd rfl hne
    | cons v vs => simp
  have hd : varDecl vars = "double".toList ++ (b ++ [';']) := by
    rw [varDecl, List.dropLast_append_of_ne_nil hbne, hb, List.append_assoc]
  have hno : ∀ c, isW c = false → c ≠ ' ' → c ≠ ',' → c ∉ b := fun c hc h1 h2 => hb ▸ body_chars hv hc h1 h2
  have hc : commas b = vars.map (' ' :: ·) := by
    rw [← hb]; exact commas_list vars hne fun v hvm => (hv v hvm).no (by decide)
  -- the first character is a space
  obtain ⟨b', hb'⟩ : ∃ b', b = ' ' :: b' := by
    rw [← hb]
    cases vars with
    | nil => exact absurd rfl hne
    | cons v vs =>
      rw [List.flatMap_cons, List.cons_append, List.cons_append, List.dropLast_cons_of_ne_nil (by simp)]
      exact ⟨_, rfl⟩
  have hb2 : ∀ v vs, vars = v :: vs → ∃ c r, v = c :: r := fun v vs e => by
    cases v with
    | nil => exact absurd rfl (hv [] (by simp [e])).1
    | cons c r => exact ⟨c, r, rfl⟩
  rw [hd, cppLine_same (by simp [hno '*' (by decide) (by decide) (by decide)])]
  have hbc : beforeComment ("double".toList ++ (b ++ [';'])) = "double".toList ++ (b ++ [';']) :=
    beforeComment_same (by simp [hno '/' (by decide) (by decide) (by decide)])
  constructor
  · rw [declares, hbc]
    have : declBody ("double".toList ++ (b ++ [';'])) = b' ++ [';'] := by
      rw [hb', show "double".toList ++ (' ' :: b' ++ [';']) = "double ".toList ++ (b' ++ [';']) from by
        rw [show "double ".toList = "double".toList ++ [' '] from by decide]; simp, declBody_double]
    rw [this, if_pos (by simp)]
    have hsemi : ';' ∉ b' := fun h => hno ';' (by decide) (by decide) (by decide) (by rw [hb']; simp [h])
    have htw : (b' ++ [';']).takeWhile (· != ';') = b' := by
      have : ∀ (l : Text), ';' ∉ l → (l ++ [';']).takeWhile (· != ';') = l := by
        intro l
        induction l with
        | nil => intro _; rfl
        | cons c l ih =>
          intro h
          rw [List.cons_append, List.takeWhile_cons, if_pos, ih fun hm => h (by simp [hm])]
          simp only [bne_iff_ne]; exact fun e => h (by simp [e])
      exact this b' hsemi
    rw [htw]
    -- commas of b' : the first part has lost its space
    cases hvs : vars with
    | nil => exact absurd hvs hne
    | cons v vs =>
      rw [hvs, hb', List.map_cons, commas, if_neg (by decide)] at hc
      have hmap : commas b' = v :: vs.map (' ' :: ·) := by
        cases hcb : commas b' with
        | nil => rw [hcb] at hc; simp at hc; exact absurd hc.1 (by obtain ⟨c, r, rfl⟩ := hb2 v vs hvs; simp)
        | cons l ls => rw [hcb] at hc; simp only [List.cons.injEq, true_and] at hc; rw [hc.1, hc.2]
      rw [hmap, List.map_cons, List.map_map]
      have hv1 : ((v.dropWhile (· == ' ')).takeWhile isW) = v := by
        have := read_name (hv v (by simp [hvs]))
        rwa [List.dropWhile_cons, if_pos (by decide)] at this
      rw [hv1]
      congr 1
      rw [List.map_congr_left (g := id)]
      · simp
      · intro x hx
        exact read_name (hv x (by simp [hvs, hx]))
  · rw [assigns, hbc]
    rw [hb', List.cons_append, takeWhile_ident (by decide) (by decide), List.drop_left, if_neg]
    rintro ⟨_, t, ht⟩
    have e : " = ".toList = [' ', '=', ' '] := by decide
    rw [e] at ht
    simp only [List.cons_append, List.nil_append, List.cons.injEq, true_and] at ht
    cases b' with
    | nil => simp at ht
    | cons c b'' =>
      simp only [List.cons_append, List.cons.injEq] at ht
      exact hno '=' (by decide) (by decide) (by decide) (by rw [hb', ← ht.1]; simp)

theorem parTail_no : '*' ∉ parTail ∧ '/' ∉ parTail ∧ ∃ r, parTail = " = XXXXX ".toList ++ ';' :: r :=
  ⟨by decide +kernel, by decide +kernel, parTail.drop 10, by decide +kernel⟩

theorem upTo_semi {l r : Text} (h : ';' ∉ l) : (l ++ ';' :: r).takeWhile (· != ';') = l := by
  induction l with
  | nil => rfl
  | cons c l ih =>
    rw [List.cons_append, List.takeWhile_cons, if_pos, ih fun hm => h (by simp [hm])]
    simp only [bne_iff_ne]; exact fun e => h (by simp [e])

theorem not_mem3 {c : Char} {a p t : Text} (h1 : c ∉ a) (h2 : c ∉ p) (h3 : c ∉ t) : c ∉ a ++ (p ++ t) := by
  simp [h1, h2, h3]

theorem line_par {p T r : Text} (hp : Ident p) (t1 : '*' ∉ T) (t2 : '/' ∉ T) (hr : T = " = XXXXX ".toList ++ ';' :: r) :
    declares (cppLine ("double ".toList ++ (p ++ T))) = [p] ∧ assigns (cppLine ("double ".toList ++ (p ++ T))) = [] := by
  have hs : '*' ∉ "double ".toList ++ (p ++ T) := not_mem3 (by decide) (hp.no (by decide)) t1
  have hbc : beforeComment ("double ".toList ++ (p ++ T)) = "double ".toList ++ (p ++ T) :=
    beforeComment_same (not_mem3 (by decide) (hp.no (by decide)) t2)
  rw [cppLine_same hs]
  have hx : ';' ∉ p ++ " = XXXXX ".toList := by
    have := not_mem3 (c := ';') (a := []) (by decide) (hp.no (c := ';') (by decide)) (show ';' ∉ " = XXXXX ".toList from by decide)
    exact this
  have hx2 : ',' ∉ p ++ " = XXXXX ".toList := by
    have := not_mem3 (c := ',') (a := []) (by decide) (hp.no (c := ',') (by decide)) (show ',' ∉ " = XXXXX ".toList from by decide)
    exact this
  obtain ⟨c, p', rfl⟩ : ∃ c p', p = c :: p' := by
    cases p with
    | nil => exact absurd rfl hp.1
    | cons c p => exact ⟨c, p, rfl⟩
  have hcw := hp.2 c (by simp)
  constructor
  · rw [declares, hbc, declBody_double, hr, ← List.append_assoc, if_pos (by simp), upTo_semi hx, commas_one hx2]
    have hdw : (c :: p' ++ " = XXXXX ".toList).dropWhile (· == ' ') = c :: p' ++ " = XXXXX ".toList := by
      rw [List.cons_append, List.dropWhile_cons, if_neg]
      simp only [beq_iff_eq]; rintro rfl; exact absurd hcw (by decide)
    rw [List.map_cons, List.map_nil, hdw, show " = XXXXX ".toList = ' ' :: "= XXXXX ".toList from by decide, takeWhile_ident hp.2 (by decide)]
  · rw [assigns, hbc, show "double ".toList = "double".toList ++ [' '] from by decide, List.append_assoc, List.singleton_append,
      takeWhile_ident (by decide) (by decide), List.drop_left, if_neg]
    rintro ⟨_, t, ht⟩
    have e : " = ".toList = [' ', '=', ' '] := by decide
    rw [e] at ht
    simp only [List.cons_append, List.nil_append, List.cons.injEq, true_and] at ht
    rw [← ht.1] at hcw
    exact absurd hcw (by decide)

/-- the line of a parameter declares it -/
theorem line_parDecl {p : Text} (hp : Ident p) : declares (cppLine (parDecl p)) = [p] ∧ assigns (cppLine (parDecl p)) = [] := by
  obtain ⟨t1, t2, r, hr⟩ := parTail_no
  exact line_par hp t1 t2 hr

end Verif.Out
