import Verif.Props.Double
import Verif.Proofs.Sample64Radau
/-!
# `Radau5` runs in double precision

C62 and C64 for the instance `B64` of the rounded arithmetic.
-/

namespace Cyphus
open X B64
set_option linter.unusedSectionVars false
set_option autoImplicit false

variable {n : ℕ} {P : Type}

/-- **C64** In double precision, on a span as in C63 and with options within their ranges: the times recorded by a
`Radau5` run never decrease, and all recorded times and all times at which the right-hand side or the Jacobian is
evaluated lie in the time span. -/
theorem C64_double_run_radau {b : Builder B64 n P} (H : DoubleSpan b) (hS : Radau.FloatSane b.opts)
    {s0 s : Radau.St B64 n P} (hb : b.build Radau.alg = .ok s0)
    (hs : (∃ k, SomeSteps Radau.alg none k s0 s) ∨ IntegrateReturns Radau.alg none s0 s) :
    s.sol.ts.Pairwise (fun a c => Fl.le a c = true) ∧
    (∀ x ∈ s.sol.ts, Fl.le b.t x = true ∧ Fl.le x b.tfinal = true) ∧
    ∀ c ∈ s.trace, Fl.le b.t c.time = true ∧ Fl.le c.time b.tfinal = true := by
  refine C64_float_run_radau laws H.toForwardSpan hS (fun t h1 h2 => ?_) hb hs
  rw [H.last h1 h2, laws.le]
  obtain ⟨r, hr⟩ := H.tfinal
  rw [hr]; simp

/-- **C62** In double precision, on such a span and with options within their ranges, a `Radau5` run that ends with
`Success` ends exactly at `tfinal`. -/
theorem C62_double_final_time_radau {b : Builder B64 n P} (H : DoubleSpan b) (hS : Radau.FloatSane b.opts)
    {s0 s : Radau.St B64 n P} (hb : b.build Radau.alg = .ok s0) (hs : IntegrateReturns Radau.alg none s0 s)
    (hc : s.sol.retcode = .Success) : s.t = b.tfinal ∧ s.sol.ts.getLast? = some b.tfinal := by
  obtain ⟨ts, t, e1, e2⟩ := C62_final_time_radau hb hs hc
  have h3 := (C64_double_run_radau H hS hb (.inr hs)).2.1 t (by rw [e1]; simp)
  have h4 := H.last h3.1 h3.2
  rw [h4] at e1 e2
  exact ⟨e2, by rw [e1]; simp⟩

/-- A span as required by the theorems above: from 0 to `2 ^ -20`. -/
theorem zero64r_span : DoubleSpan (zero64r (dbl 0 0) (dbl 1 (-20))) where
  t := zero64_span.t
  tfinal := zero64_span.tfinal
  length := zero64_span.length
  lt := zero64_span.lt
  dt := zero64_span.dt
  nonneg := zero64_span.nonneg
  even := zero64_span.even

/-- A run in double precision to which C62 and C64 apply: it takes one step and ends with `Success`. -/
example : ∃ s0 s : Radau.St B64 1 Unit, (zero64r (dbl 0 0) (dbl 1 (-20))).build Radau.alg = .ok s0 ∧
    DoubleSpan (zero64r (dbl 0 0) (dbl 1 (-20))) ∧ Radau.FloatSane (zero64r (dbl 0 0) (dbl 1 (-20))).opts ∧
    IntegrateReturns Radau.alg none s0 s ∧ s.sol.retcode = .Success ∧ s.t = dbl 1 (-20) ∧ s.sol.ts.length = 2 := by
  have hx : (dbl 0 0).x = fin 0 := by change fin _ = _; norm_num
  have hy : (dbl 1 (-20)).x = fin (2 ^ (-20 : ℤ)) := by change fin _ = _; norm_num
  have hd : (dbl 1 (-20) - dbl 0 0).x = fin (2 ^ (-20 : ℤ)) := by
    rw [sub_x, hx, hy, sub_fin, sub_zero, round_fin]; exact round64_rep (rep_pow (-20))
  obtain ⟨s0, s, hb, hi, hc, -, e⟩ := Radau.zero64r_run (a := 33 * 2 ^ (-25 : ℤ)) hx hy (by norm_num) (by norm_num)
    ⟨_, hd, by norm_num, by norm_num⟩ (by simpa using rep_int_pow 33 (-25)) (by norm_num) (by norm_num)
  exact ⟨s0, s, hb, zero64r_span, Radau.default_sane64, hi, hc,
    (C62_double_final_time_radau zero64r_span Radau.default_sane64 hb hi hc).1, by rw [e]; rfl⟩

end Cyphus
