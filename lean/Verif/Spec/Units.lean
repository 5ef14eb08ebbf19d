import Verif.Ode.Basic
import Verif.Arith.X
/-!
# Specification: the same problem in other units
-/

namespace Cyphus
open X
set_option autoImplicit false
variable {F : Type} {n : Nat} {P C : Type}

/-- The vector `u` measured in other units: all components are multiplied by `c`. -/
noncomputable def Spec.units (c : ℝ) (u : Vec n X) : Vec n X := fun i => fin c * u i

/-- The vector `u` with the opposite sign. -/
def Spec.mirror [Neg F] (u : Vec n F) : Vec n F := fun i => -u i

/-- `b'` is the problem of `b` for the states changed by `T`, with another `abstol`: the right-hand side computes `T u'` from
`T u`, the initial state is changed, the remainder is the same. (`buf` is the former content of the buffer the right-hand side
writes to; most users ignore it.) -/
structure Spec.Changed (T : Vec n F → Vec n F) (abstol : F) (b b' : Builder F n P) : Prop where
  rhs : ∀ buf u t, b'.dudt b.params (T buf) (T u) t = T (b.dudt b.params buf u t)
  other : b' = { b with dudt := b'.dudt, dfdu := b'.dfdu, u := T b.u, opts := { b.opts with abstol := abstol } }

/-- Both users provide the Jacobian, which is the same. -/
def Spec.SameJac (T : Vec n F → Vec n F) (b b' : Builder F n P) : Prop :=
  ∃ f f', b.dfdu = some f ∧ b'.dfdu = some f' ∧ ∀ buf u t, f' b.params buf (T u) t = f b.params buf u t

/-- What users see of the integrator `s'` is what they see of `s`, states being changed by `T`. -/
structure Spec.Seen (T : Vec n F → Vec n F) (s s' : Integ F n P C) : Prop where
  ts : s'.sol.ts = s.sol.ts
  us : s'.sol.us = s.sol.us.map T
  retcode : s'.sol.retcode = s.sol.retcode
  stats : s'.stats = s.stats
  t : s'.t = s.t
  dt : s'.dt = s.dt
  u : s'.u = T s.u

end Cyphus
