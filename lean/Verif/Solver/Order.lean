import Verif.Solver.EndToEnd
/-!
# C63: the order of the unknowns decides which formulas are found
-/
namespace Verif.Solver
open Verif.Sol Verif.Leaf Verif.Sym Verif.Eqn
open Verif.BT hiding Tree

/-- **C63 violated.** The same robot (the same equations, the same three unknowns) with its list of unknowns in two orders — and the order in
which the sum-of-angles step appends unknowns is that of a python set, `Kin.C63_order_violation` —: one run solves `th_1` once, with the single
formula `atan2(r_21, r_11)`; the other gives it two formulas `acos(r_11)`, `-acos(r_11)` and two nodes. -/
theorem C63_solver_order_violation : ["th_1", "y", "x"].Perm ["y", "th_1", "x"] ∧
    view (demoThree ["y", "th_1", "x"]) = some (.success, ["th_1", "x", "y"],
      [[.bin .atan2 (.sym "r_21") (.sym "r_11")], [.bin .add (.un .neg (.sym "l_1")) (.sym "Pz")],
       [.bin .add (.un .neg (.sym "x")) (.sym "r_33")]]) ∧
    view (demoThree ["th_1", "y", "x"]) = some (.success, ["th_1", "x", "th_1", "y"],
      [[.un .acos (.sym "r_11"), .un .neg (.un .acos (.sym "r_11"))], [.bin .add (.un .neg (.sym "l_1")) (.sym "Pz")],
       [.un .acos (.sym "r_11"), .un .neg (.un .acos (.sym "r_11"))], [.bin .add (.un .neg (.sym "x")) (.sym "r_33")]]) :=
  ⟨.swap .., demoThree_ok, C41_resolve_violation⟩

end Verif.Solver
