import Verif.Ode.Basic
/-!
# Model of `src/ode/jacobian.rs`
-/

namespace Cyphus
variable {F : Type} {n : Nat} {P : Type}
  [Add F] [Sub F] [Mul F] [Div F] [Neg F] [OfScientific F] [Fl F]

/-- `arr[i] = v` on a vector. -/
def Vec.set (v : Vec n F) (i : Fin n) (x : F) : Vec n F := fun j => if j = i then x else v j

/-- The local variables of the finite-difference branch of `jacobian_u`. -/
structure JacLoop (F : Type) (n : Nat) where
  utemp : Vec n F
  du1 : Vec n F
  df : Mat n F
  calls : List (Call F n)

/-- The increment `del`, src/ode/jacobian.rs:24. -/
def jacDel (usafe : F) : F := Fl.sqrt (Fl.eps * Fl.max usafe 1e-5)

/-- One iteration of the outer loop, src/ode/jacobian.rs:22-31. The inner loop (27-29) writes column `i`
of `df`, entry by entry. -/
def jacStep (dudt : Rhs F n P) (t : F) (p : P) (du0 : Vec n F) (l : JacLoop F n) (i : Fin n) :
    JacLoop F n :=
  let usafe := l.utemp i
  let del := jacDel usafe
  let utemp := Vec.set l.utemp i (usafe + del)
  let du1 := dudt p l.du1 utemp t
  let df : Mat n F := fun j k => if k = i then (du1 j - du0 j) / del else l.df j k
  { utemp := Vec.set utemp i usafe
    du1 := du1
    df := df
    calls := l.calls ++ [Call.rhs t utemp] }

/-- `jacobian_u`, src/ode/jacobian.rs:3-34: the new contents of `df` and the user calls made. -/
def jacobian_u (dudt : Rhs F n P) (dfdu : Option (JacFn F n P)) (df : Mat n F) (u : Vec n F) (t : F)
    (p : P) : Mat n F × List (Call F n) :=
  match dfdu with
  | some f => (f p df u t, [Call.jacU t u])
  | none =>
    let zeros : Vec n F := fun _ => 0.0
    let du0 := dudt p zeros u t
    let r := (List.finRange n).foldl (jacStep dudt t p du0)
      { utemp := u, du1 := zeros, df := df, calls := [Call.rhs t u] }
    (r.df, r.calls)

/-- `jacobian_t`, src/ode/jacobian.rs:36-57: the new contents of `df` and the user calls made. -/
def jacobian_t (dudt : Rhs F n P) (dfdt : Option (Rhs F n P)) (df : Vec n F) (u : Vec n F) (t : F)
    (p : P) : Vec n F × List (Call F n) :=
  match dfdt with
  | some f => (f p df u t, [Call.jacT t u])
  | none =>
    let zeros : Vec n F := fun _ => 0.0
    let du := dudt p zeros u t
    let df := dudt p df u t
    let dt := Fl.eps * Fl.max t 1e-5
    (fun i => (df i - du i) / dt, [Call.rhs t u, Call.rhs t u])

end Cyphus
