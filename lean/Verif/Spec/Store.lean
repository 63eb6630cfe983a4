import Verif.Model.Store

/-!
What it means for two objects to be made from the same simulation.
-/

namespace Verif.Store

/-- Whatever `env2` can compute is what `env` computes; it may lack the snapshot, and then fails. -/
structure Env.le (env2 env : Env) : Prop where
  compute : ∀ e i l b, env2.compute e i l b = env.compute e i l b ∨ ∃ x, env2.compute e i l b = .error x
  weighted : ∀ g e i, env2.weighted g e i = env.weighted g e i ∨ ∃ x, env2.weighted g e i = .error x
  lines : env2.lines = env.lines
  pick : env2.pick = env.pick
  phys : env2.phys = env.phys
  divide : env2.divide = env.divide

/-- The environment of an object opened without its snapshot: everything that needs it raises. -/
def Env.noSnapshot (env : Env) : Env :=
  { env with compute := fun _ _ _ _ => .error .attributeError, weighted := fun _ _ _ => .error .attributeError }

end Verif.Store
