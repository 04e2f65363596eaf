/-!
# What the library modules import, define and use (generated)

Written by tools/gen_imports.py from the text of the sources; the numbers in the comments are line numbers of the
module's file.  Modules: `/repo/ikbtbasics/{pykinsym,kin_cl,solutionGraphV3,matching,ik_classes}.py` and
`/repo/ikbtfunctions/{helperfunctions,graph2latex}.py`; clients: the other modules and programs that import them.
Left out: `if __name__ == "__main__":` blocks, test classes' methods, docstrings.
-/

namespace Verif.Imports

/-- The modules that the other modules of the library are built on. -/
inductive Mod where
  | pykinsym | kin_cl | solutionGraphV3 | matching | ik_classes | helperfunctions | graph2latex
  deriving DecidableEq, Repr

/-- Modules of other projects (`import sympy as sp` …); `b3` does not import the library. -/
inductive Ext where
  | sympy | numpy | sys | unittest | re | itertools | shutil | os | copy | b3 | pickle
  deriving DecidableEq, Repr

/-- The names that the modules bind or use. -/
inductive N where
  | sp | np | sys | deg | rad2deg | stype_zero | stype_one | stype_float | stype_int | stype_m_one
  | params | approx_N | wrap_angle_N | Num_check | Link_S | Link_N | s_0 | s_1 | s_2 | s_3 | s_4
  | s_5 | s_6 | c_0 | c_1 | c_2 | c_3 | c_4 | c_5 | c_6 | al_0 | al_1 | al_2 | al_3 | al_4
  | al_5 | al_6 | a_0 | a_1 | a_2 | a_3 | a_4 | a_5 | a_6 | d_0 | d_1 | d_2 | d_3 | d_4 | d_5
  | d_6 | th_0 | th_1 | th_2 | th_3 | th_4 | th_5 | th_6 | c_12 | s_12 | c_23 | s_23 | c_34
  | s_34 | c_45 | s_45 | c_56 | s_56 | c_13 | s_13 | notation_squeeze | RotX_S | RotY_S | RotZ_S
  | RotX4_S | RotY4_S | RotZ4_S | RPY3_S | RPY4_S | Trans4_S | H_inv_S | Trans4_N | RotX_N | RotY_N
  | RotZ_N | RotX4_N | RotY4_N | RotZ4_N | RPY3_N | RPY4_N | H_inv_N | ManipJacobian_S | unittest
  | re | hf | JACOBIAN | qd_0 | qd_1 | qd_2 | qd_3 | qd_4 | qd_5 | qd_6 | x | kequation | unknown
  | matrix_equation | mechanism | forward_kinematics_N | TestSolver008 | run_test | kc | itt | Node
  | Edge | SolutionGraphV2Tests | sort_by_length | search_notation | finish_found | mark_off
  | matching_func | sort_variables | sh | os | copy | pks | sg | mtch | b3 | pickle | gl | h | l_0
  | l_1 | l_2 | l_3 | l_4 | l_5 | l_6 | th_12 | th_23 | th_34 | th_45 | th_56 | th_123 | th_234
  | th_345 | th_456 | soa_vars | soa_expansions | pprotocol | kinematics_pickle | check_the_pickle
  | Robot | sum_of_angles_sub | get_variable_index | erank | theta_expand | count_unknowns
  | get_unknowns | get_deps | get_variables | find_obj | ik_lhs | prog_bar | newnode | tikz_setup
  | tikz_startpicture | tikz_place_node | tikz_place_children | tikz_place_edge | tikz_closepicture
  deriving DecidableEq, Repr

/-- What a name can stand for: the object made by the statement in a line of a module (a class, a function, a value), a
library module, a foreign module, or the sympy symbol of that name (symbols of the same name are equal). -/
inductive Val where
  | obj (m : Mod) (line : Nat)
  | module (m : Mod)
  | ext (e : Ext)
  | sym (n : N)
  deriving DecidableEq, Repr

/-- A top-level statement, as far as names are concerned. -/
inductive Stmt where
  /-- `import e as n` of a foreign module -/
  | importExt (e : Ext) (n : N)
  /-- `import m as n` of a library module -/
  | importAs (m : Mod) (n : N)
  /-- `from m import *` -/
  | star (m : Mod)
  /-- names that the statement evaluates (right-hand sides, base classes, default values) -/
  | need (ns : List N)
  /-- `def`, `class`, assignment, `sp.var` -/
  | bind (n : N) (v : Val)
  /-- `del n` -/
  | del (n : N)
  deriving DecidableEq, Repr

/-- The top-level statements of the modules, in order (the files and lines in the comments). -/
def body : Mod → List Stmt
  | .pykinsym => [   -- ikbtbasics/pykinsym.py
      .importExt .sympy .sp,   -- 18
      .importExt .numpy .np,   -- 19
      .importExt .sys .sys,   -- 20
      .bind .deg (.obj .pykinsym 29),   -- 29
      .need [.deg], .bind .rad2deg (.obj .pykinsym 30),   -- 30
      .need [.sp], .bind .stype_zero (.obj .pykinsym 36),   -- 36
      .need [.sp], .bind .stype_one (.obj .pykinsym 37),   -- 37
      .need [.sp], .bind .stype_float (.obj .pykinsym 38),   -- 38
      .need [.sp], .bind .stype_int (.obj .pykinsym 39),   -- 39
      .need [.sp], .bind .stype_m_one (.obj .pykinsym 40),   -- 40
      .bind .params (.obj .pykinsym 44),   -- 44
      .bind .approx_N (.obj .pykinsym 52),   -- 52
      .bind .wrap_angle_N (.obj .pykinsym 61),   -- 61
      .bind .Num_check (.obj .pykinsym 71),   -- 71
      .bind .Link_S (.obj .pykinsym 92),   -- 92
      .bind .Link_N (.obj .pykinsym 102),   -- 102
      .need [.sp], .bind .s_0 (.sym .s_0), .bind .s_1 (.sym .s_1), .bind .s_2 (.sym .s_2),
      .bind .s_3 (.sym .s_3), .bind .s_4 (.sym .s_4), .bind .s_5 (.sym .s_5), .bind .s_6 (.sym .s_6),   -- 117
      .need [.sp], .bind .c_0 (.sym .c_0), .bind .c_1 (.sym .c_1), .bind .c_2 (.sym .c_2),
      .bind .c_3 (.sym .c_3), .bind .c_4 (.sym .c_4), .bind .c_5 (.sym .c_5), .bind .c_6 (.sym .c_6),   -- 118
      .del .s_0, .del .c_0,   -- 119
      .need [.sp], .bind .al_0 (.sym .al_0), .bind .al_1 (.sym .al_1), .bind .al_2 (.sym .al_2),
      .bind .al_3 (.sym .al_3), .bind .al_4 (.sym .al_4), .bind .al_5 (.sym .al_5), .bind .al_6 (.sym .al_6),   -- 124
      .need [.sp], .bind .a_0 (.sym .a_0), .bind .a_1 (.sym .a_1), .bind .a_2 (.sym .a_2),
      .bind .a_3 (.sym .a_3), .bind .a_4 (.sym .a_4), .bind .a_5 (.sym .a_5), .bind .a_6 (.sym .a_6),   -- 125
      .need [.sp], .bind .d_0 (.sym .d_0), .bind .d_1 (.sym .d_1), .bind .d_2 (.sym .d_2),
      .bind .d_3 (.sym .d_3), .bind .d_4 (.sym .d_4), .bind .d_5 (.sym .d_5), .bind .d_6 (.sym .d_6),   -- 126
      .need [.sp], .bind .th_0 (.sym .th_0), .bind .th_1 (.sym .th_1), .bind .th_2 (.sym .th_2),
      .bind .th_3 (.sym .th_3), .bind .th_4 (.sym .th_4), .bind .th_5 (.sym .th_5), .bind .th_6 (.sym .th_6),   -- 127
      .need [.sp], .bind .c_12 (.sym .c_12), .bind .s_12 (.sym .s_12), .bind .c_23 (.sym .c_23),
      .bind .s_23 (.sym .s_23), .bind .c_34 (.sym .c_34), .bind .s_34 (.sym .s_34), .bind .c_45 (.sym .c_45),
      .bind .s_45 (.sym .s_45), .bind .c_56 (.sym .c_56), .bind .s_56 (.sym .s_56), .bind .c_13 (.sym .c_13),
      .bind .s_13 (.sym .s_13),   -- 131
      .bind .notation_squeeze (.obj .pykinsym 133),   -- 133
      .bind .RotX_S (.obj .pykinsym 178),   -- 178
      .bind .RotY_S (.obj .pykinsym 185),   -- 185
      .bind .RotZ_S (.obj .pykinsym 192),   -- 192
      .bind .RotX4_S (.obj .pykinsym 201),   -- 201
      .bind .RotY4_S (.obj .pykinsym 209),   -- 209
      .bind .RotZ4_S (.obj .pykinsym 217),   -- 217
      .bind .RPY3_S (.obj .pykinsym 227),   -- 227
      .bind .RPY4_S (.obj .pykinsym 231),   -- 231
      .bind .Trans4_S (.obj .pykinsym 241),   -- 241
      .bind .H_inv_S (.obj .pykinsym 250),   -- 250
      .bind .Trans4_N (.obj .pykinsym 263),   -- 263
      .bind .RotX_N (.obj .pykinsym 273),   -- 273
      .bind .RotY_N (.obj .pykinsym 280),   -- 280
      .bind .RotZ_N (.obj .pykinsym 287),   -- 287
      .bind .RotX4_N (.obj .pykinsym 296),   -- 296
      .bind .RotY4_N (.obj .pykinsym 304),   -- 304
      .bind .RotZ4_N (.obj .pykinsym 312),   -- 312
      .bind .RPY3_N (.obj .pykinsym 323),   -- 323
      .bind .RPY4_N (.obj .pykinsym 327),   -- 327
      .bind .H_inv_N (.obj .pykinsym 338),   -- 338
      .bind .ManipJacobian_S (.obj .pykinsym 356)   -- 356
    ]
  | .kin_cl => [   -- ikbtbasics/kin_cl.py
      .importExt .unittest .unittest,   -- 18
      .importExt .re .re,   -- 19
      .importExt .sympy .sp,   -- 20
      .importExt .numpy .np,   -- 21
      .star .pykinsym,   -- 23
      .star .solutionGraphV3,   -- 25
      .importAs .helperfunctions .hf,   -- 27
      .bind .JACOBIAN (.obj .kin_cl 32),   -- 32
      .need [.sp], .bind .qd_0 (.sym .qd_0), .bind .qd_1 (.sym .qd_1), .bind .qd_2 (.sym .qd_2),
      .bind .qd_3 (.sym .qd_3), .bind .qd_4 (.sym .qd_4), .bind .qd_5 (.sym .qd_5), .bind .qd_6 (.sym .qd_6),   -- 35
      .need [.sp],   -- 45
      .need [.sp], .bind .x (.sym .x),   -- 46
      .need [.x], .bind .kequation (.obj .kin_cl 49),   -- 49
      .need [.sp], .bind .x (.sym .x), .bind .unknown (.obj .kin_cl 88),   -- 88
      .need [.sp], .bind .matrix_equation (.obj .kin_cl 222),   -- 222
      .bind .mechanism (.obj .kin_cl 250),   -- 250
      .bind .forward_kinematics_N (.obj .kin_cl 526),   -- 526
      .need [.unittest], .bind .TestSolver008 (.obj .kin_cl 550),   -- 550
      .bind .run_test (.obj .kin_cl 658)   -- 658
    ]
  | .solutionGraphV3 => [   -- ikbtbasics/solutionGraphV3.py
      .importExt .unittest .unittest,   -- 19
      .importExt .sympy .sp,   -- 20
      .star .ik_classes,   -- 21
      .importAs .kin_cl .kc,   -- 22
      .star .matching,   -- 23
      .importExt .itertools .itt,   -- 24
      .bind .Node (.obj .solutionGraphV3 28),   -- 28
      .bind .Edge (.obj .solutionGraphV3 64),   -- 64
      .need [.unittest], .bind .SolutionGraphV2Tests (.obj .solutionGraphV3 91)   -- 91
    ]
  | .matching => [   -- ikbtbasics/matching.py
      .importExt .unittest .unittest,   -- 36
      .importExt .sympy .sp,   -- 37
      .star .ik_classes,   -- 38
      .importAs .kin_cl .kc,   -- 39
      .bind .sort_by_length (.obj .matching 43),   -- 43
      .bind .search_notation (.obj .matching 61),   -- 61
      .bind .finish_found (.obj .matching 92),   -- 92
      .bind .mark_off (.obj .matching 99),   -- 99
      .bind .matching_func (.obj .matching 116),   -- 116
      .bind .sort_variables (.obj .matching 227)   -- 227
    ]
  | .ik_classes => [   -- ikbtbasics/ik_classes.py
      .importExt .sympy .sp,   -- 22
      .importExt .shutil .sh,   -- 23
      .importExt .os .os,   -- 24
      .importExt .copy .copy,   -- 25
      .importAs .pykinsym .pks,   -- 27
      .importExt .re .re,   -- 28
      .importAs .solutionGraphV3 .sg,   -- 29
      .importAs .matching .mtch,   -- 30
      .importExt .sys .sys,   -- 31
      .importExt .b3 .b3,   -- 32
      .importExt .pickle .pickle,   -- 33
      .star .helperfunctions,   -- 34
      .importAs .graph2latex .gl,   -- 35
      .importAs .kin_cl .kc,   -- 37
      .need [.sp], .bind .th_1 (.sym .th_1), .bind .th_2 (.sym .th_2), .bind .th_3 (.sym .th_3),
      .bind .th_4 (.sym .th_4), .bind .th_5 (.sym .th_5), .bind .th_6 (.sym .th_6),   -- 40
      .need [.sp], .bind .d_1 (.sym .d_1), .bind .d_2 (.sym .d_2), .bind .d_3 (.sym .d_3),
      .bind .d_4 (.sym .d_4), .bind .d_5 (.sym .d_5), .bind .d_6 (.sym .d_6),   -- 41
      .need [.sp], .bind .h (.sym .h), .bind .l_0 (.sym .l_0), .bind .l_1 (.sym .l_1), .bind .l_2 (.sym .l_2),
      .bind .l_3 (.sym .l_3), .bind .l_4 (.sym .l_4), .bind .l_5 (.sym .l_5), .bind .l_6 (.sym .l_6),   -- 42
      .need [.sp], .bind .a_2 (.sym .a_2), .bind .a_3 (.sym .a_3),   -- 43
      .need [.sp], .bind .l_5 (.sym .l_5), .bind .l_6 (.sym .l_6),   -- 44
      .need [.sp], .bind .th_12 (.sym .th_12), .bind .th_23 (.sym .th_23), .bind .th_34 (.sym .th_34),
      .bind .th_45 (.sym .th_45), .bind .th_56 (.sym .th_56),   -- 45
      .need [.sp], .bind .th_123 (.sym .th_123), .bind .th_234 (.sym .th_234), .bind .th_345 (.sym .th_345),
      .bind .th_456 (.sym .th_456),   -- 46
      .need [.sp], .bind .c_12 (.sym .c_12), .bind .s_12 (.sym .s_12), .bind .c_23 (.sym .c_23),
      .bind .s_23 (.sym .s_23), .bind .c_34 (.sym .c_34), .bind .s_34 (.sym .s_34), .bind .c_45 (.sym .c_45),
      .bind .s_45 (.sym .s_45), .bind .c_56 (.sym .c_56), .bind .s_56 (.sym .s_56), .bind .c_13 (.sym .c_13),
      .bind .s_13 (.sym .s_13),   -- 47
      .need [.sp], .bind .x (.sym .x),   -- 48
      .need [.th_12, .th_23, .th_34, .th_45, .th_56], .bind .soa_vars (.obj .ik_classes 49),   -- 49
      .bind .soa_expansions (.obj .ik_classes 51),   -- 51
      .need [.th_1, .th_2, .soa_expansions, .th_12],   -- 52
      .need [.th_2, .th_3, .soa_expansions, .th_23],   -- 53
      .need [.th_3, .th_4, .soa_expansions, .th_34],   -- 54
      .need [.th_4, .th_5, .soa_expansions, .th_45],   -- 55
      .need [.th_5, .th_6, .soa_expansions, .th_56],   -- 56
      .need [.th_3, .th_1, .th_2, .soa_expansions, .th_123],   -- 57
      .need [.th_4, .th_2, .th_3, .soa_expansions, .th_234],   -- 58
      .need [.th_5, .th_3, .th_4, .soa_expansions, .th_345],   -- 59
      .need [.th_6, .th_4, .th_5, .soa_expansions, .th_456],   -- 60
      .bind .pprotocol (.obj .ik_classes 62),   -- 62
      .bind .kinematics_pickle (.obj .ik_classes 66),   -- 66
      .bind .check_the_pickle (.obj .ik_classes 118),   -- 118
      .bind .Robot (.obj .ik_classes 142),   -- 142
      .bind .sum_of_angles_sub (.obj .ik_classes 419),   -- 419
      .bind .get_variable_index (.obj .ik_classes 531),   -- 531
      .bind .erank (.obj .ik_classes 558)   -- 558
    ]
  | .helperfunctions => [   -- ikbtfunctions/helperfunctions.py
      .importExt .unittest .unittest,   -- 23
      .importExt .sys .sys,   -- 24
      .importExt .sympy .sp,   -- 25
      .bind .theta_expand (.obj .helperfunctions 32),   -- 32
      .bind .count_unknowns (.obj .helperfunctions 37),   -- 37
      .bind .get_unknowns (.obj .helperfunctions 45),   -- 45
      .bind .get_deps (.obj .helperfunctions 53),   -- 53
      .bind .get_variables (.obj .helperfunctions 70),   -- 70
      .bind .find_obj (.obj .helperfunctions 80),   -- 80
      .bind .ik_lhs (.obj .helperfunctions 87),   -- 87
      .bind .prog_bar (.obj .helperfunctions 110)   -- 110
    ]
  | .graph2latex => [   -- ikbtfunctions/graph2latex.py
      .importExt .sympy .sp,   -- 20
      .bind .newnode (.obj .graph2latex 30),   -- 30
      .bind .tikz_setup (.obj .graph2latex 60),   -- 60
      .bind .tikz_startpicture (.obj .graph2latex 85),   -- 85
      .bind .tikz_place_node (.obj .graph2latex 94),   -- 94
      .bind .tikz_place_children (.obj .graph2latex 101),   -- 101
      .bind .tikz_place_edge (.obj .graph2latex 112),   -- 112
      .bind .tikz_closepicture (.obj .graph2latex 116)   -- 116
    ]

/-- A function or method: the module it is defined in, its name and line, the global names its body uses (without builtins
and without the symbols it creates itself with `sp.var`), and the attributes of library modules it uses. -/
structure Fn where
  m : Mod
  name : String
  line : Nat
  names : List N
  attrs : List (N × N)
  deriving DecidableEq, Repr

/-- All functions and methods of the modules (files as in `body`). -/
def functions : List Fn := [
  ⟨.pykinsym, "approx_N", 52, [.np], []⟩,
  ⟨.pykinsym, "wrap_angle_N", 61, [.np], []⟩,
  ⟨.pykinsym, "Num_check", 71, [.np, .sp, .stype_float, .stype_int, .stype_m_one, .stype_one, .stype_zero, .sys], []⟩,
  ⟨.pykinsym, "Link_S", 92, [.sp], []⟩,
  ⟨.pykinsym, "Link_N", 102, [.np], []⟩,
  ⟨.pykinsym, "notation_squeeze", 133, [.c_1, .c_12, .c_13, .c_2, .c_23, .c_3, .c_34, .c_4, .c_45, .c_5, .c_56, .c_6, .s_1, .s_12, .s_13, .s_2, .s_23, .s_3, .s_34, .s_4, .s_45, .s_5, .s_56, .s_6, .sp, .th_1, .th_2, .th_3, .th_4, .th_5, .th_6], []⟩,
  ⟨.pykinsym, "RotX_S", 178, [.sp], []⟩,
  ⟨.pykinsym, "RotY_S", 185, [.sp], []⟩,
  ⟨.pykinsym, "RotZ_S", 192, [.sp], []⟩,
  ⟨.pykinsym, "RotX4_S", 201, [.sp], []⟩,
  ⟨.pykinsym, "RotY4_S", 209, [.sp], []⟩,
  ⟨.pykinsym, "RotZ4_S", 217, [.sp], []⟩,
  ⟨.pykinsym, "RPY3_S", 227, [.RotX_S, .RotY_S, .RotZ_S], []⟩,
  ⟨.pykinsym, "RPY4_S", 231, [.RPY3_S, .sp], []⟩,
  ⟨.pykinsym, "Trans4_S", 241, [.sp], []⟩,
  ⟨.pykinsym, "H_inv_S", 250, [.sp], []⟩,
  ⟨.pykinsym, "Trans4_N", 263, [.np], []⟩,
  ⟨.pykinsym, "RotX_N", 273, [.np], []⟩,
  ⟨.pykinsym, "RotY_N", 280, [.np], []⟩,
  ⟨.pykinsym, "RotZ_N", 287, [.np], []⟩,
  ⟨.pykinsym, "RotX4_N", 296, [.np], []⟩,
  ⟨.pykinsym, "RotY4_N", 304, [.np], []⟩,
  ⟨.pykinsym, "RotZ4_N", 312, [.np], []⟩,
  ⟨.pykinsym, "RPY3_N", 323, [.RotX_N, .RotY_N, .RotZ_N], []⟩,
  ⟨.pykinsym, "RPY4_N", 327, [.RPY3_N, .np], []⟩,
  ⟨.pykinsym, "H_inv_N", 338, [.sp], []⟩,
  ⟨.pykinsym, "ManipJacobian_S", 356, [.sp], []⟩,
  ⟨.kin_cl, "kequation.__init__", 50, [], []⟩,
  ⟨.kin_cl, "kequation.prt", 55, [], []⟩,
  ⟨.kin_cl, "kequation.__repr__", 58, [], []⟩,
  ⟨.kin_cl, "kequation.__eq__", 60, [], []⟩,
  ⟨.kin_cl, "kequation.__ne__", 67, [], []⟩,
  ⟨.kin_cl, "kequation.__hash__", 72, [], []⟩,
  ⟨.kin_cl, "kequation.LaTexOutput", 75, [.re, .sp, .theta_expand], []⟩,
  ⟨.kin_cl, "unknown.__init__", 89, [.sp], []⟩,
  ⟨.kin_cl, "unknown.__eq__", 125, [], []⟩,
  ⟨.kin_cl, "unknown.__hash__", 130, [], []⟩,
  ⟨.kin_cl, "unknown.__repr__", 133, [], []⟩,
  ⟨.kin_cl, "unknown.details", 136, [], []⟩,
  ⟨.kin_cl, "unknown.set_solved", 153, [.Edge, .Node, .get_deps], []⟩,
  ⟨.kin_cl, "unknown.scan", 202, [.erank, .kc], [(.kc, .kequation)]⟩,
  ⟨.kin_cl, "matrix_equation.__init__", 223, [.sp], []⟩,
  ⟨.kin_cl, "matrix_equation.get_kequation_list", 235, [.kequation], []⟩,
  ⟨.kin_cl, "matrix_equation.__repr__", 243, [.notation_squeeze, .sp], []⟩,
  ⟨.kin_cl, "mechanism.__init__", 252, [.np], []⟩,
  ⟨.kin_cl, "mechanism.forward_kinematics", 269, [.JACOBIAN, .Link_S, .ManipJacobian_S, .np, .qd_1, .qd_2, .qd_3, .qd_4, .qd_5, .qd_6, .sp], []⟩,
  ⟨.kin_cl, "mechanism.get_mequation_set", 474, [.H_inv_S, .hf, .matrix_equation], [(.hf, .ik_lhs)]⟩,
  ⟨.kin_cl, "forward_kinematics_N", 526, [.Num_check, .np, .sp], []⟩,
  ⟨.solutionGraphV3, "Node.__init__", 30, [], []⟩,
  ⟨.solutionGraphV3, "Node.details", 45, [], []⟩,
  ⟨.solutionGraphV3, "Node.__lt__", 48, [], []⟩,
  ⟨.solutionGraphV3, "Node.__eq__", 51, [], []⟩,
  ⟨.solutionGraphV3, "Node.__hash__", 56, [], []⟩,
  ⟨.solutionGraphV3, "Node.__repr__", 59, [], []⟩,
  ⟨.solutionGraphV3, "Edge.__init__", 65, [], []⟩,
  ⟨.solutionGraphV3, "Edge.__repr__", 71, [], []⟩,
  ⟨.solutionGraphV3, "Edge.__eq__", 74, [], []⟩,
  ⟨.solutionGraphV3, "Edge.__hash__", 77, [], []⟩,
  ⟨.matching, "sort_by_length", 43, [], []⟩,
  ⟨.matching, "search_notation", 61, [], []⟩,
  ⟨.matching, "finish_found", 92, [], []⟩,
  ⟨.matching, "mark_off", 99, [], []⟩,
  ⟨.matching, "matching_func", 116, [.finish_found, .mark_off, .search_notation, .sort_by_length, .sort_variables], []⟩,
  ⟨.matching, "sort_variables", 227, [], []⟩,
  ⟨.ik_classes, "kinematics_pickle", 66, [.Robot, .kc, .os, .pickle, .pprotocol], [(.kc, .mechanism)]⟩,
  ⟨.ik_classes, "check_the_pickle", 118, [], []⟩,
  ⟨.ik_classes, "Robot.__init__", 143, [], []⟩,
  ⟨.ik_classes, "Robot.make_LHS_versions", 200, [.kc, .sp], [(.kc, .kequation)]⟩,
  ⟨.ik_classes, "Robot.create_solution_set", 238, [.copy], []⟩,
  ⟨.ik_classes, "Robot.scan_for_equations", 289, [.count_unknowns, .erank, .kc, .sp], [(.kc, .kequation)]⟩,
  ⟨.ik_classes, "Robot.scan_Mequation", 340, [.count_unknowns, .erank], []⟩,
  ⟨.ik_classes, "Robot.sum_of_angles_transform", 367, [.prog_bar, .sp, .sum_of_angles_sub], []⟩,
  ⟨.ik_classes, "sum_of_angles_sub", 419, [.get_variable_index, .kc, .sp], [(.kc, .kequation), (.kc, .unknown)]⟩,
  ⟨.ik_classes, "get_variable_index", 531, [], []⟩,
  ⟨.ik_classes, "erank", 558, [.sp], []⟩,
  ⟨.helperfunctions, "theta_expand", 32, [], []⟩,
  ⟨.helperfunctions, "count_unknowns", 37, [], []⟩,
  ⟨.helperfunctions, "get_unknowns", 45, [], []⟩,
  ⟨.helperfunctions, "get_deps", 53, [], []⟩,
  ⟨.helperfunctions, "get_variables", 70, [], []⟩,
  ⟨.helperfunctions, "find_obj", 80, [], []⟩,
  ⟨.helperfunctions, "ik_lhs", 87, [.sp], []⟩,
  ⟨.helperfunctions, "prog_bar", 110, [.sys], []⟩,
  ⟨.graph2latex, "newnode.__init__", 31, [], []⟩,
  ⟨.graph2latex, "newnode.__hash__", 39, [], []⟩,
  ⟨.graph2latex, "newnode.__eq__", 42, [], []⟩,
  ⟨.graph2latex, "newnode.__repr__", 50, [], []⟩,
  ⟨.graph2latex, "tikz_setup", 60, [], []⟩,
  ⟨.graph2latex, "tikz_startpicture", 85, [], []⟩,
  ⟨.graph2latex, "tikz_place_node", 94, [], []⟩,
  ⟨.graph2latex, "tikz_place_children", 101, [.sp, .tikz_place_children], []⟩,
  ⟨.graph2latex, "tikz_place_edge", 112, [], []⟩,
  ⟨.graph2latex, "tikz_closepicture", 116, [], []⟩]

/-- The other modules of the library and its programs. -/
inductive Client where
  | ik_robots | output_cpp | output_latex | output_python | assigner_leaf | comp_detect | updateL | algebra_solver | tan_solver | sincos_solver | sinANDcos_solver | rank_leaf | sub_transform | sum_id | two_eqn_m7 | x2y2_transform | fkOnly | ikSolver | foward_kin | forward_kin2 | fk_EE543
  deriving DecidableEq, Repr

/-- What a client imports. -/
inductive Target where
  | base (m : Mod)
  | client (c : Client)
  /-- `from ikbtbasics import *`: all modules of the package, in the order of `glob` (ikbtbasics/__init__.py:7-8) -/
  | package
  deriving DecidableEq, Repr

/-- The library modules that a client imports, in order (the files and lines in the comments). -/
def imports : Client → List Target
  | .ik_robots => [.base .kin_cl, .base .helperfunctions, .base .ik_classes]   -- ikbtfunctions/ik_robots.py: 22, 23, 24
  | .output_cpp => [.base .kin_cl, .base .helperfunctions, .base .ik_classes]   -- ikbtfunctions/output_cpp.py: 24, 25, 26
  | .output_latex => [.base .pykinsym, .base .kin_cl, .base .solutionGraphV3, .base .matching, .base .helperfunctions, .base .graph2latex]   -- ikbtfunctions/output_latex.py: 29, 30, 31, 32, 36, 37
  | .output_python => [.base .kin_cl, .base .helperfunctions, .base .ik_classes]   -- ikbtfunctions/output_python.py: 23, 24, 25
  | .assigner_leaf => [.base .helperfunctions, .base .kin_cl, .base .ik_classes]   -- ikbtleaves/assigner_leaf.py: 25, 26, 27
  | .comp_detect => [.base .helperfunctions, .base .kin_cl, .base .ik_classes]   -- ikbtleaves/comp_detect.py: 22, 23, 24
  | .updateL => [.base .helperfunctions, .base .kin_cl, .base .ik_classes, .client .ik_robots]   -- ikbtleaves/updateL.py: 27, 28, 29, 34
  | .algebra_solver => [.base .helperfunctions, .base .kin_cl, .base .ik_classes, .client .assigner_leaf, .client .comp_detect]   -- ikbtleaves/algebra_solver.py: 27, 28, 29, 34, 35
  | .tan_solver => [.base .helperfunctions, .base .kin_cl, .base .ik_classes, .client .updateL, .client .comp_detect, .client .assigner_leaf]   -- ikbtleaves/tan_solver.py: 33, 34, 35, 37, 38, 39
  | .sincos_solver => [.base .helperfunctions, .base .kin_cl, .base .ik_classes, .client .assigner_leaf]   -- ikbtleaves/sincos_solver.py: 32, 35, 38, 42
  | .sinANDcos_solver => [.base .helperfunctions, .base .kin_cl, .base .ik_classes, .client .assigner_leaf]   -- ikbtleaves/sinANDcos_solver.py: 23, 24, 25, 26
  | .rank_leaf => [.base .helperfunctions, .base .kin_cl, .base .ik_classes, .client .sincos_solver, .client .tan_solver]   -- ikbtleaves/rank_leaf.py: 24, 25, 26, 113, 114
  | .sub_transform => [.base .helperfunctions, .base .kin_cl, .base .ik_classes]   -- ikbtleaves/sub_transform.py: 29, 30, 31
  | .sum_id => [.base .helperfunctions, .base .kin_cl, .base .ik_classes]   -- ikbtleaves/sum_id.py: 22, 23, 24
  | .two_eqn_m7 => [.base .helperfunctions, .base .kin_cl, .base .ik_classes]   -- ikbtleaves/two_eqn_m7.py: 21, 22, 23
  | .x2y2_transform => [.base .helperfunctions, .base .kin_cl, .base .ik_classes, .client .ik_robots]   -- ikbtleaves/x2y2_transform.py: 40, 41, 42, 43
  | .fkOnly => [.base .helperfunctions, .client .output_latex, .client .output_python, .client .output_cpp, .client .ik_robots]   -- fkOnly.py: 30, 31, 32, 33, 34
  | .ikSolver => [.base .helperfunctions, .client .output_latex, .client .output_python, .client .output_cpp, .client .ik_robots, .package, .client .assigner_leaf, .client .rank_leaf, .client .algebra_solver, .client .tan_solver, .client .sincos_solver, .client .sinANDcos_solver, .client .x2y2_transform, .client .sub_transform, .client .sum_id, .client .two_eqn_m7]   -- ikSolver.py: 29, 30, 31, 32, 33, 35, 36, 37, 38, 39, 40, 41, 42, 43, 45, 46
  | .foward_kin => [.base .helperfunctions, .client .ik_robots, .package]   -- foward_kin.py: 29, 30, 31
  | .forward_kin2 => [.base .helperfunctions, .client .ik_robots, .package]   -- forward_kin2.py: 29, 30, 31
  | .fk_EE543 => [.base .helperfunctions, .client .ik_robots, .package]   -- fk_EE543.py: 29, 30, 31

end Verif.Imports
