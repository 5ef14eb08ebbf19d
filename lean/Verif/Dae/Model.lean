/-!
# Model of `src/dae/problem.rs`

The file is not part of the crate (src/lib.rs has no `mod dae`); it is modelled as written. `usize` is
modelled by `Nat`: the sums of the source do not wrap for values that fit in memory-sized systems, and the
only subtraction (`n - m1`, line 192) is guarded by the check of line 182.
-/

namespace Cyphus
namespace Dae

/-- `OdeProblemBuildErr`, src/dae/problem.rs:4-8. -/
inductive BuildErr where
  | InvalidIndexPars (i1 i2 i3 : Nat)
  | Invalid2ndOrderPars (m1 m2 : Nat)
  | InvlaidMassBw (jl ju ml mu : Nat)
  deriving DecidableEq, Repr

/-- `OdeProblem`, src/dae/problem.rs:39-67. `T`: type of the function object, `F`: number type. -/
structure Problem (T F : Type) where
  func : T
  mass_matrix : Option (List (List F))
  uinit : List F
  tspan : F × F
  num_index1_vars : Nat
  num_index2_vars : Nat
  num_index3_vars : Nat
  m1 : Nat
  m2 : Nat
  jac_ubw : Nat
  jac_lbw : Nat
  mm_ubw : Nat
  mm_lbw : Nat
  deriving DecidableEq

/-- `OdeProblemBuilder`, src/dae/problem.rs:69-97. -/
structure Builder (T F : Type) where
  func : T
  mass_matrix : Option (List (List F))
  uinit : List F
  tspan : F × F
  num_index1_vars : Option Nat
  num_index2_vars : Option Nat
  num_index3_vars : Option Nat
  m1 : Option Nat
  m2 : Option Nat
  jac_ubw : Option Nat
  jac_lbw : Option Nat
  mm_ubw : Option Nat
  mm_lbw : Option Nat

variable {T F : Type}

/-- `OdeProblemBuilder::default`, src/dae/problem.rs:100-116. -/
def Builder.default (func : T) (uinit : List F) (tspan : F × F) : Builder T F where
  func := func
  mass_matrix := none
  uinit := uinit
  tspan := tspan
  num_index1_vars := none
  num_index2_vars := none
  num_index3_vars := none
  m1 := none
  m2 := none
  jac_ubw := none
  jac_lbw := none
  mm_ubw := none
  mm_lbw := none

/-- The builder methods, src/dae/problem.rs:118-162. -/
inductive Setter (F : Type) where
  | with_mass (m : List (List F))
  | num_index1_vars (v : Nat)
  | num_index2_vars (v : Nat)
  | num_index3_vars (v : Nat)
  | second_order_params (v : Nat × Nat)
  | jac_bandwidths (v : Nat × Nat)
  | mass_bandwidths (v : Nat × Nat)

/-- The effect of one builder method, src/dae/problem.rs:118-162. -/
def Builder.set (b : Builder T F) : Setter F → Builder T F
  | .with_mass m => { b with mass_matrix := some m }
  | .num_index1_vars v => { b with num_index1_vars := some v }
  | .num_index2_vars v => { b with num_index2_vars := some v }
  | .num_index3_vars v => { b with num_index3_vars := some v }
  | .second_order_params v => { b with m1 := some v.1, m2 := some v.2 }
  | .jac_bandwidths v => { b with jac_lbw := some v.1, jac_ubw := some v.2 }
  | .mass_bandwidths v => { b with mm_lbw := some v.1, mm_ubw := some v.2 }

/-- `OdeProblemBuilder::build`, src/dae/problem.rs:164-223. Line 176 reads `self.m1` for `m2`. -/
def Builder.build (b : Builder T F) : Except BuildErr (Problem T F) :=
  let n := b.uinit.length
  let nind1 := b.num_index1_vars.getD n
  let nind2 := b.num_index2_vars.getD 0
  let nind3 := b.num_index3_vars.getD 0
  if nind1 + nind2 + nind3 ≠ n then .error (.InvalidIndexPars nind1 nind2 nind3) else
  let m1 := b.m1.getD 0
  let m2 := b.m1.getD 0
  let m2 := if m1 = 0 then n else if m2 = 0 then m1 else m2
  if m1 + m2 > n then .error (.Invalid2ndOrderPars m1 m2) else
  let jac_ubw := b.jac_ubw.getD n
  let jac_lbw := b.jac_lbw.getD n
  let mm_ubw := b.mm_ubw.getD n
  let mm_lbw := b.mm_lbw.getD n
  let nm1 := n - m1
  let jband := decide (jac_lbw < nm1)
  let jac_ubw := if !jband then nm1 else jac_ubw
  let jac_lbw := if !jband then nm1 else jac_lbw
  if b.mass_matrix.isSome ∧ (mm_lbw > jac_lbw ∨ mm_ubw > jac_ubw) then
    .error (.InvlaidMassBw jac_lbw jac_ubw mm_lbw mm_ubw)
  else
    .ok { func := b.func
          mass_matrix := b.mass_matrix
          uinit := b.uinit
          tspan := b.tspan
          num_index1_vars := nind1
          num_index2_vars := nind2
          num_index3_vars := nind3
          m1 := m1
          m2 := m2
          jac_ubw := jac_ubw
          jac_lbw := jac_lbw
          mm_ubw := mm_ubw
          mm_lbw := mm_lbw }

end Dae
end Cyphus
