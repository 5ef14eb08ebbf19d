import Verif.Ode.Basic
/-!
# Histories of `step()` calls

The vocabulary in which the properties of runs are stated. Nothing here refers to an algorithm.
-/

namespace Cyphus
variable {F : Type} {n : Nat} {P : Type} (alg : Algorithm F n P)

/-- The call `integrator.step()` in state `s` returns, with value `o` and new state `s'`. -/
def StepReturns (cb : Option (Callback alg)) (s : Integ F n P alg.Cache)
    (o : Option Nat) (s' : Integ F n P alg.Cache) : Prop :=
  ∃ fuel, Integ.step alg cb fuel s = .ok (s', o)

/-- `k` successive calls of `step()`, whatever they return, lead from one state to another. -/
inductive Steps (cb : Option (Callback alg)) :
    Nat → Integ F n P alg.Cache → Integ F n P alg.Cache → Prop
  | zero (s) : Steps cb 0 s s
  | succ {k s s' s'' o} : Steps cb k s s' → StepReturns alg cb s' o s'' → Steps cb (k + 1) s s''

/-- `k` successive calls of `step()` which all return `Some`. -/
inductive SomeSteps (cb : Option (Callback alg)) :
    Nat → Integ F n P alg.Cache → Integ F n P alg.Cache → Prop
  | zero (s) : SomeSteps cb 0 s s
  | succ {k s s' s'' i} : SomeSteps cb k s s' → StepReturns alg cb s' (some i) s'' →
      SomeSteps cb (k + 1) s s''

/-- `integrate()` returns, in state `s'`. -/
def IntegrateReturns (cb : Option (Callback alg)) (s s' : Integ F n P alg.Cache) : Prop :=
  ∃ fuel, Integ.integrate alg cb fuel s = .ok s'

/-- `s` is reached from the integrator `build()` returns for the builder `b` by `k` calls of `step()`
without callback. -/
def ReachedBy [Sub F] [OfScientific F] [Fl F] (b : Builder F n P) (k : Nat)
    (s : Integ F n P alg.Cache) : Prop :=
  ∃ s0, b.build alg = .ok s0 ∧ Steps alg none k s0 s

/-- The loop `for (t, u) in integrator { .. }` terminates; it yields the pairs `ps` and leaves the integrator
in state `s'`. -/
def ForReturns (cb : Option (Callback alg)) (s s' : Integ F n P alg.Cache) (ps : List (F × Vec n F)) :
    Prop :=
  ∃ fuel, Integ.forLoop alg cb fuel s = .ok (s', ps)

/-- The callback, if there is one, does not touch the recorded solution. -/
def KeepsSol (cb : Option (Callback alg)) : Prop := ∀ f, cb = some f → ∀ s, (f s).sol = s.sol

/-- The points recorded in a solution, as pairs. -/
def Solution.points (s : Solution F n) : List (F × Vec n F) := s.ts.zip s.us

/-- The number of calls of the right-hand side in a trace. -/
def rhsCalls (l : List (Call F n)) : Nat := l.countP fun c => match c with | .rhs _ _ => true | _ => false

/-- The number of calls of the user's Jacobian in a trace. -/
def jacCalls (l : List (Call F n)) : Nat := l.countP fun c => match c with | .jacU _ _ => true | _ => false

/-- The state of a solution iterator after `k` calls of `next()`. -/
def SolIter.after : Nat → SolIter F n → SolIter F n
  | 0, it => it
  | k + 1, it => SolIter.after k it.next.1

end Cyphus
