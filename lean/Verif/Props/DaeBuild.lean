import Verif.Dae.Model
import Verif.Spec.Builder
/-!
# C54: validation by the DAE problem builder
-/

namespace Cyphus
namespace Dae
set_option autoImplicit false
variable {T F : Type}

/-! The values `build()` works with: what the user gave, or the documented default. -/

/-- Size of the system. -/
def Builder.n (b : Builder T F) : Nat := b.uinit.length
/-- The numbers of variables of index 1, 2, 3 add up to the size of the system. -/
def Builder.IndicesOk (b : Builder T F) : Prop :=
  b.num_index1_vars.getD b.n + b.num_index2_vars.getD 0 + b.num_index3_vars.getD 0 = b.n
/-- The Jacobian counts as banded. -/
def Builder.Banded (b : Builder T F) : Prop := b.jac_lbw.getD b.n < b.n - b.m1.getD 0
/-- A mass matrix, if given, has bandwidths not exceeding those of the Jacobian (of the full block of size
`n - m1` if the Jacobian is not banded). -/
def Builder.MassOk (b : Builder T F) : Prop := b.mass_matrix ≠ none →
  (b.Banded → b.mm_lbw.getD b.n ≤ b.jac_lbw.getD b.n ∧ b.mm_ubw.getD b.n ≤ b.jac_ubw.getD b.n) ∧
  (¬ b.Banded → b.mm_lbw.getD b.n ≤ b.n - b.m1.getD 0 ∧ b.mm_ubw.getD b.n ≤ b.n - b.m1.getD 0)

end Dae

open Dae
set_option autoImplicit false
variable {T F : Type}

/-- **C54** `build()` succeeds exactly for these builders. The `m2` of the user does not occur: the condition
`m1 + m2 ≤ n` is checked with `m1` in the place of `m2`. -/
theorem C54_build_ok_iff (b : Dae.Builder T F) :
    (∃ p, b.build = .ok p) ↔ b.IndicesOk ∧ 2 * b.m1.getD 0 ≤ b.n ∧ b.MassOk := by
  simp only [Dae.Builder.build, Builder.IndicesOk, Builder.MassOk, Builder.Banded, Builder.n]
  generalize b.uinit.length = n
  generalize b.m1.getD 0 = m1
  generalize b.jac_lbw.getD n = jl
  generalize b.jac_ubw.getD n = ju
  generalize b.mm_lbw.getD n = ml
  generalize b.mm_ubw.getD n = mu
  generalize b.num_index1_vars.getD n = i1
  generalize b.num_index2_vars.getD 0 = i2
  generalize b.num_index3_vars.getD 0 = i3
  cases b.mass_matrix <;> by_cases h : jl < n - m1 <;> simp [h] <;> repeat' split
  all_goals (simp only [Except.ok.injEq, exists_eq', reduceCtorEq, exists_false, true_iff, false_iff, not_and, Nat.not_le])
  all_goals omega

/-- **C54** What the error says when the index counts are wrong. -/
theorem C54_index_error_iff (b : Dae.Builder T F) : ¬ b.IndicesOk ↔
    b.build = .error (.InvalidIndexPars (b.num_index1_vars.getD b.n) (b.num_index2_vars.getD 0)
      (b.num_index3_vars.getD 0)) := by
  simp only [Dae.Builder.build, Builder.IndicesOk, Builder.n]
  constructor
  · intro h; rw [if_pos h]
  · intro h hc
    rw [if_neg (by simpa using hc)] at h
    by_cases h2 : b.m1.getD 0 + (if b.m1.getD 0 = 0 then b.uinit.length else if b.m1.getD 0 = 0 then b.m1.getD 0
      else b.m1.getD 0) > b.uinit.length
    · rw [if_pos h2] at h; simp at h
    · rw [if_neg h2] at h
      repeat' split at h
      all_goals simp at h

/-- **C54** The problem `build()` returns: the data of the user with defaults filled in, except that `m2` is `m1`
(the size of the system if `m1` is zero), and that a non-banded Jacobian gets bandwidths `n - m1`. -/
theorem C54_result (b : Dae.Builder T F) (p : Dae.Problem T F) (h : b.build = .ok p) :
    p.func = b.func ∧ p.mass_matrix = b.mass_matrix ∧ p.uinit = b.uinit ∧ p.tspan = b.tspan ∧
    p.num_index1_vars = b.num_index1_vars.getD b.n ∧ p.num_index2_vars = b.num_index2_vars.getD 0 ∧
    p.num_index3_vars = b.num_index3_vars.getD 0 ∧ p.m1 = b.m1.getD 0 ∧
    p.m2 = (if p.m1 = 0 then b.n else p.m1) ∧
    (b.Banded → p.jac_lbw = b.jac_lbw.getD b.n ∧ p.jac_ubw = b.jac_ubw.getD b.n) ∧
    (¬ b.Banded → p.jac_lbw = b.n - p.m1 ∧ p.jac_ubw = b.n - p.m1) ∧
    p.mm_lbw = b.mm_lbw.getD b.n ∧ p.mm_ubw = b.mm_ubw.getD b.n := by
  simp only [Dae.Builder.build, Builder.Banded, Builder.n] at h ⊢
  generalize hjl : (if (!decide (b.jac_lbw.getD b.uinit.length < b.uinit.length - b.m1.getD 0)) = true then
    b.uinit.length - b.m1.getD 0 else b.jac_lbw.getD b.uinit.length) = jl at h
  generalize hju : (if (!decide (b.jac_lbw.getD b.uinit.length < b.uinit.length - b.m1.getD 0)) = true then
    b.uinit.length - b.m1.getD 0 else b.jac_ubw.getD b.uinit.length) = ju at h
  generalize hm2 : (if b.m1.getD 0 = 0 then b.uinit.length else if b.m1.getD 0 = 0 then b.m1.getD 0
      else b.m1.getD 0) = m2 at h
  split at h
  · cases h
  · split at h
    · cases h
    · split at h
      · cases h
      · cases h
        refine ⟨rfl, rfl, rfl, rfl, rfl, rfl, rfl, rfl, ?_, ?_, ?_, rfl, rfl⟩
        · dsimp only; rw [← hm2]; simp
        · intro h; rw [← hjl, ← hju]; simp [h]
        · intro h; rw [← hjl, ← hju]; simp [h]

/-- **C54** The `m2` given by the user is ignored. -/
theorem C54_m2_ignored (b : Dae.Builder T F) (x : Option Nat) : ({ b with m2 := x } : Dae.Builder T F).build = b.build :=
  rfl

/-- **C54** In particular parameters violating the documented condition `m1 + m2 ≤ n` are accepted, and a problem
built with them has another `m2`: `second_order_params (1, m)` on a system of size two. -/
theorem C54_bad_second_order_params_accepted (func : T) (x y : F) (ts : F × F) (m : Nat) :
    ∃ p, ((Dae.Builder.default func [x, y] ts).set (.second_order_params (1, m))).build = .ok p ∧ p.m2 = 1 := by
  exact ⟨_, rfl, rfl⟩

/-- **C54** With `m1 > 0`, a mass matrix and no explicit mass bandwidths, `build()` always fails. -/
theorem C54_default_mass_bandwidths_rejected (b : Dae.Builder T F) (hm : b.mass_matrix ≠ none) (h1 : 0 < b.m1.getD 0)
    (hl : b.mm_lbw = none) : ¬ ∃ p, b.build = .ok p := by
  rw [C54_build_ok_iff]
  rintro ⟨-, h2, h3⟩
  have h3 := h3 hm
  rw [hl] at h3
  unfold Builder.Banded at h3
  simp only [Option.getD_none] at h3
  by_cases hb : b.jac_lbw.getD b.n < b.n - b.m1.getD 0
  · have := (h3.1 hb).1; omega
  · have := (h3.2 hb).1; omega

theorem Dae.sets_last {β : Type} (g : Dae.Builder T F → Option β) (pick : Dae.Setter F → Option β)
    (h : ∀ b x, g (b.set x) = (pick x).orElse fun _ => g b) (calls : List (Dae.Setter F)) (b : Dae.Builder T F)
    (h0 : g b = none) : g (calls.foldl Dae.Builder.set b) = Spec.lastGiven pick calls := by
  have : ∀ b, g (calls.foldl Dae.Builder.set b) = (Spec.lastGiven pick calls).orElse fun _ => g b := by
    induction calls with
    | nil => intro b; rfl
    | cons x l ih =>
      intro b
      rw [List.foldl_cons, ih, h]
      simp only [Spec.lastGiven, List.reverse_cons, List.findSome?_append]
      cases List.findSome? pick l.reverse with
      | some v => rfl
      | none => cases hp : pick x <;> simp [hp]
  rw [this, h0]
  cases Spec.lastGiven pick calls <;> rfl

/-- **C54** After any chain of builder calls, every datum of the builder that `build()` validates is the last value
given for it, bandwidths being given as (lower, upper). -/
theorem C54_last_write_wins (func : T) (uinit : List F) (ts : F × F) (calls : List (Dae.Setter F)) :
    let b := calls.foldl Dae.Builder.set (Dae.Builder.default func uinit ts)
    b.func = func ∧ b.uinit = uinit ∧ b.tspan = ts ∧
    b.mass_matrix = Spec.lastGiven (fun | .with_mass m => some m | _ => none) calls ∧
    b.num_index1_vars = Spec.lastGiven (fun | .num_index1_vars v => some v | _ => none) calls ∧
    b.num_index2_vars = Spec.lastGiven (fun | .num_index2_vars v => some v | _ => none) calls ∧
    b.num_index3_vars = Spec.lastGiven (fun | .num_index3_vars v => some v | _ => none) calls ∧
    b.m1 = Spec.lastGiven (fun | .second_order_params (m1, _) => some m1 | _ => none) calls ∧
    b.jac_lbw = Spec.lastGiven (fun | .jac_bandwidths (lower, _) => some lower | _ => none) calls ∧
    b.jac_ubw = Spec.lastGiven (fun | .jac_bandwidths (_, upper) => some upper | _ => none) calls ∧
    b.mm_lbw = Spec.lastGiven (fun | .mass_bandwidths (lower, _) => some lower | _ => none) calls ∧
    b.mm_ubw = Spec.lastGiven (fun | .mass_bandwidths (_, upper) => some upper | _ => none) calls := by
  have hc : ∀ {β : Type} (g : Dae.Builder T F → β), (∀ b x, g (b.set x) = g b) → ∀ b,
      g (calls.foldl Dae.Builder.set b) = g b := by
    intro β g h
    induction calls with
    | nil => intro b; rfl
    | cons x l ih => intro b; rw [List.foldl_cons, ih, h]
  refine ⟨?_, ?_, ?_, ?_, ?_, ?_, ?_, ?_, ?_, ?_, ?_, ?_⟩
  · exact hc (fun b => b.func) (by rintro b (_ | _) <;> rfl) _
  · exact hc (fun b => b.uinit) (by rintro b (_ | _) <;> rfl) _
  · exact hc (fun b => b.tspan) (by rintro b (_ | _) <;> rfl) _
  all_goals exact Dae.sets_last (fun b => _) _ (by rintro b (_ | _) <;> rfl) _ _ rfl

/-- Each case occurs: a valid builder, a wrong index count, a mass matrix that is too wide. -/
example : (∃ p, (Dae.Builder.default () [0, 1] ((0 : Nat), 1)).build = .ok p) ∧
    ¬ ((Dae.Builder.default () [0, 1] ((0 : Nat), 1)).set (.num_index2_vars 1)).IndicesOk ∧
    ((((Dae.Builder.default () [0, 1] ((0 : Nat), 1)).set (.with_mass [])).set (.second_order_params (1, 1))).m1.getD 0
      = 1) := by
  refine ⟨⟨_, rfl⟩, ?_, rfl⟩
  change ¬ (2 + 1 + 0 = 2)
  decide

end Cyphus
