import Verif.Out.LatexDemo
/-!
# C62: the report of the forward kinematics
-/
namespace Verif.Out.Tex
open Verif.Out

/-! ## The report of the forward kinematics -/

/-- the left side of the forward kinematics, an equals sign, then its numbered columns -/
def fkItem' (lhs : Text) (cols : List Text) : Item :=
  .eqn (mathToks lhs ++ [.ch '=', .cmd tBr] ++ (cols.mapIdx fun c t => columnToks c ++ [.cmd tBr] ++ mathToks t ++ [.cmd tBr]).flatten)

theorem fkColumn'_feed (c : Nat) {t : Text} (h : mathOK t = true) (b : Bool) (cu : List Tok) (o : List Item) :
    feed ⟨.txt b, ⟨[.env tDmath], cu, o⟩⟩ (fkColumn' c t) =
      some ⟨.txt true, ⟨[.env tDmath], cu ++ (columnToks c ++ [.cmd tBr] ++ mathToks t ++ [.cmd tBr]), o⟩⟩ := by
  unfold fkColumn'
  simp only [List.append_assoc]
  refine feed_trans (s' := ⟨.name "quad".toList, ⟨[.brace, .env tDmath],
    cu ++ ([.cmd "mathrm".toList, .opn] ++ "Column".toList.map .ch), o⟩⟩) ?_ ?_
  · have : feed ⟨.txt b, ⟨[.env tDmath], cu, o⟩⟩ "\\mathrm{Column \\quad".toList = some ⟨.name "quad".toList, ⟨[.brace, .env tDmath],
      cu ++ [.cmd "mathrm".toList] ++ [.opn] ++ [.ch 'C'] ++ [.ch 'o'] ++ [.ch 'l'] ++ [.ch 'u'] ++ [.ch 'm'] ++ [.ch 'n'], o⟩⟩ := by
      cases b <;> rfl
    rw [this]; simp
  refine feed_trans (quad_feed c _ place_bd (by decide) _ _) ?_
  refine feed_trans (s' := ⟨.txt false, ⟨[.env tDmath], cu ++ columnToks c ++ [.cmd tBr], o⟩⟩) ?_ ?_
  · have : ∀ X, feed ⟨.txt false, ⟨[.brace, .env tDmath], X, o⟩⟩ "}\\\\".toList =
      some ⟨.txt false, ⟨[.env tDmath], X ++ [.cls] ++ [.cmd tBr], o⟩⟩ := fun X => rfl
    rw [this]; simp [columnToks, colNo]
  refine feed_trans (s' := ⟨.txt true, ⟨[.env tDmath], cu ++ columnToks c ++ [.cmd tBr], o⟩⟩) rfl ?_
  refine mstep h place_dmath rfl ?_
  rw [if_pos (by decide)]
  have : feed ⟨.txt false, ⟨[.env tDmath], cu ++ columnToks c ++ [.cmd tBr] ++ mathToks t, o⟩⟩ ("\\\\".toList ++ eol) =
    some ⟨.txt true, ⟨[.env tDmath], cu ++ columnToks c ++ [.cmd tBr] ++ mathToks t ++ [.cmd tBr], o⟩⟩ := rfl
  rw [this]; simp

theorem jacColumn'_feed (c : Nat) {t : Text} (h : mathOK t = true) (b : Bool) (cu : List Tok) (o : List Item) :
    feed ⟨.txt b, ⟨[.env tDmath], cu, o⟩⟩ (jacColumn' c t) =
      some ⟨.txt true, ⟨[.env tDmath], cu ++ (columnToks c ++ [.cmd tBr] ++ mathToks t ++ [.cmd tBr]), o⟩⟩ := by
  unfold jacColumn'
  simp only [List.append_assoc]
  refine feed_trans (s' := ⟨.txt false, ⟨[.brace, .env tDmath],
    cu ++ ([.cmd "mathrm".toList, .opn] ++ "Column".toList.map .ch ++ [.cmd "quad".toList]), o⟩⟩) ?_ ?_
  · have : feed ⟨.txt b, ⟨[.env tDmath], cu, o⟩⟩ "\\mathrm{Column \\quad ".toList = some ⟨.txt false, ⟨[.brace, .env tDmath],
      cu ++ [.cmd "mathrm".toList] ++ [.opn] ++ [.ch 'C'] ++ [.ch 'o'] ++ [.ch 'l'] ++ [.ch 'u'] ++ [.ch 'm'] ++ [.ch 'n'] ++ [.cmd "quad".toList], o⟩⟩ := by
      cases b <;> rfl
    rw [this]; simp
  refine feed_trans (digits_feed (colNo_digits c) _ place_bd (by decide) _ _) ?_
  refine feed_trans (s' := ⟨.txt false, ⟨[.env tDmath], cu ++ columnToks c ++ [.cmd tBr], o⟩⟩) ?_ ?_
  · have : ∀ X, feed ⟨.txt false, ⟨[.brace, .env tDmath], X, o⟩⟩ "}\\\\".toList =
      some ⟨.txt false, ⟨[.env tDmath], X ++ [.cls] ++ [.cmd tBr], o⟩⟩ := fun X => rfl
    rw [this]; simp [columnToks, colNo]
  refine feed_trans (s' := ⟨.txt true, ⟨[.env tDmath], cu ++ columnToks c ++ [.cmd tBr], o⟩⟩) rfl ?_
  refine mstep h place_dmath rfl ?_
  rw [if_pos (by decide)]
  have : feed ⟨.txt false, ⟨[.env tDmath], cu ++ columnToks c ++ [.cmd tBr] ++ mathToks t, o⟩⟩ (eol ++ ("\\\\ ".toList ++ eol)) =
    some ⟨.txt true, ⟨[.env tDmath], cu ++ columnToks c ++ [.cmd tBr] ++ mathToks t ++ [.cmd tBr], o⟩⟩ := rfl
  rw [this]; simp

theorem fkIntro_sec {name : Text} (h : nameText name) : Sec (fkIntro name) [] := by
  have hn := dropTest_name h
  have ht : texName name = escU (dropTest name) := rfl
  refine sec_lit (b := true) rfl (c := ' ') (by decide +kernel) (by decide) ?_
  unfold fkIntro
  rw [ht]
  simp only [List.append_assoc]
  refine feed_trans (s' := ⟨.txt false, ⟨[.brace, .env "center".toList], [], []⟩⟩) (by decide +kernel) ?_
  obtain ⟨b, hb⟩ := escU_feed (noTab_brace [.env "center".toList]) (by decide) hn false [] []
  refine feed_trans hb ?_
  refine feed_trans (s' := ⟨.txt false, ⟨[], [], []⟩⟩) (by cases b <;> decide +kernel) ?_
  obtain ⟨b', hb'⟩ := escU_feed noTab_nil (by decide) hn false [] []
  refine feed_trans hb' ?_
  cases b' <;> decide +kernel

theorem fk_sec' {lhs : Text} {cols : List Text} (hl : mathOK lhs = true) (hc : ∀ t ∈ cols, mathOK t = true) : Sec (fkSection' lhs cols) [fkItem' lhs cols] := by
  refine sec_eol rfl ?_
  unfold fkSection'
  simp only [List.append_assoc]
  refine feed_trans (s' := ⟨.txt false, ⟨[], [], []⟩⟩) (by decide +kernel) ?_
  refine feed_trans (s' := ⟨.txt true, ⟨[], [], []⟩⟩) rfl ?_
  refine feed_trans (s' := ⟨.txt false, ⟨[.env tDmath], [], []⟩⟩) rfl ?_
  refine feed_trans (s' := ⟨.txt true, ⟨[.env tDmath], [], []⟩⟩) rfl ?_
  refine mstep hl place_dmath rfl ?_
  refine feed_trans (s' := ⟨.txt false, ⟨[.env tDmath], mathToks lhs ++ [.ch '='] ++ [.cmd tBr], []⟩⟩) rfl ?_
  refine feed_trans (s' := ⟨.txt true, ⟨[.env tDmath], mathToks lhs ++ [.ch '='] ++ [.cmd tBr], []⟩⟩) rfl ?_
  refine feed_trans (columns_feed (toks := fun c t => columnToks c ++ [.cmd tBr] ++ mathToks t ++ [.cmd tBr]) (fun c t h => fkColumn'_feed c h) cols hc _ _) ?_
  have e : fkItem' lhs cols = .eqn (mathToks lhs ++ [.ch '='] ++ [.cmd tBr] ++
    (cols.mapIdx fun c t => columnToks c ++ [.cmd tBr] ++ mathToks t ++ [.cmd tBr]).flatten) := by simp [fkItem']
  rw [e]
  refine feed_trans (s' := ⟨.txt false, ⟨[], [], [.eqn (mathToks lhs ++ [.ch '='] ++ [.cmd tBr] ++
    (cols.mapIdx fun c t => columnToks c ++ [.cmd tBr] ++ mathToks t ++ [.cmd tBr]).flatten)]⟩⟩) rfl ?_
  refine feed_trans (s' := ⟨.txt true, ⟨[], [], [.eqn (mathToks lhs ++ [.ch '='] ++ [.cmd tBr] ++
    (cols.mapIdx fun c t => columnToks c ++ [.cmd tBr] ++ mathToks t ++ [.cmd tBr]).flatten)]⟩⟩) rfl ?_
  exact feed_out (o' := []) (by decide +kernel) _

theorem jac_sec' {cols : List Text} (hc : ∀ t ∈ cols, mathOK t = true) : Sec (jacSection' cols) [jacItem cols] := by
  refine sec_eol rfl ?_
  unfold jacSection'
  simp only [List.append_assoc]
  refine feed_trans (s' := ⟨.txt true, ⟨[], [], []⟩⟩) (by decide +kernel) ?_
  refine feed_trans (s' := ⟨.txt false, ⟨[.env tDmath], [], []⟩⟩) rfl ?_
  refine feed_trans (s' := ⟨.txt true, ⟨[.env tDmath], [], []⟩⟩) rfl ?_
  refine feed_trans (s' := ⟨.txt false, ⟨[.env tDmath], "^6J_6=".toList.map .ch ++ [.cmd tBr], []⟩⟩) (by decide +kernel) ?_
  refine feed_trans (s' := ⟨.txt true, ⟨[.env tDmath], "^6J_6=".toList.map .ch ++ [.cmd tBr], []⟩⟩) (by decide +kernel) ?_
  refine feed_trans (columns_feed (toks := fun c t => columnToks c ++ [.cmd tBr] ++ mathToks t ++ [.cmd tBr]) (fun c t h => jacColumn'_feed c h) cols hc _ _) ?_
  rfl

/-- **C62 for `output_FK_equations`.** For every robot whose name has no character with a meaning in LaTeX other than the underscore: the file
is accepted and shows the DH matrix, the numbered columns of the forward kinematics and the numbered columns of the Jacobian. -/
theorem C62_fk_report (r : Report) (hn : nameText r.name)
    (ht : mathOK r.dh = true ∧ mathOK r.lhs = true ∧ (∀ t ∈ r.fk, mathOK t = true) ∧ ∀ t ∈ r.jac, mathOK t = true) :
    Shows (fkReportBody r) [.eqn (mathToks r.dh), fkItem' r.lhs r.fk, jacItem r.jac] := by
  have hs := sections_show (ss := [fkIntro r.name, paramSection r.dh, fkSection' r.lhs r.fk, jacSection' r.jac])
    (os := [[], [.eqn (mathToks r.dh)], [fkItem' r.lhs r.fk], [jacItem r.jac]])
    (.cons (fkIntro_sec hn) (.cons (param_sec ht.1) (.cons (fk_sec' ht.2.1 ht.2.2.1) (.cons (jac_sec' ht.2.2.2) .nil)))) []
  unfold Shows fkReportBody
  rw [hs]
  simp

example : Shows (fkReportBody demoReport) [.eqn (mathToks demoReport.dh), fkItem' demoReport.lhs demoReport.fk, jacItem demoReport.jac] :=
  C62_fk_report _ demoReport_ok.name demoReport_ok.texts

/-- **C62 is violated** for a robot named with a character like `&`: the title is not accepted by LaTeX. -/
theorem C62_name_violation : ∃ name : Text, ∀ dh lhs fk jac nodes final nv edges groups table, ∀ out,
    ¬ Shows (fkReportBody ⟨name, dh, lhs, fk, jac, nodes, final, nv, edges, groups, table⟩) out :=
  ⟨"R&D".toList, fun dh lhs fk jac nodes final nv edges groups table out h => by
    unfold Shows fkReportBody sectionsText at h
    simp only [List.map_cons, List.flatten_cons] at h
    have : feed ⟨.txt true, ⟨[], [], []⟩⟩ ("\n\n\n".toList ++ plines (splitLines (fkIntro "R&D".toList))) = none := by decide +kernel
    rw [feed_append, this] at h
    cases h⟩

end Verif.Out.Tex
