import Verif.Proofs.Sample64
import Verif.Props.FinalTime
/-!
# C62, C63 in double precision

Level F, for the double-precision numbers `B64` of `Verif/Arith/Binary64.lean`.
-/

namespace Cyphus
open X B64
set_option linter.unusedSectionVars false
set_option autoImplicit false
variable {n : Nat} {P : Type}

/-- A forward time span that starts at a nonnegative time and ends at a number with at most 52 significant bits (that
is, a double whose last bit is zero, such as any integer below `2 ^ 52`). -/
structure DoubleSpan (b : Builder B64 n P) : Prop extends ForwardSpan B64.x b where
  nonneg : Fl.le 0.0 b.t = true
  even : ∃ y, b.tfinal.x = fin y ∧ Even64 y

/-- In such a span the last step never misses `tfinal`. -/
theorem DoubleSpan.last {b : Builder B64 n P} (H : DoubleSpan b) {t : B64} (h1 : Fl.le b.t t = true)
    (h2 : Fl.le t b.tfinal = true) : t + (b.tfinal - t) = b.tfinal := by
  obtain ⟨y, hy, he⟩ := H.even
  have h0 := H.nonneg
  rw [laws.le_zero_iff] at h0
  rw [laws.le] at h1 h2
  rw [hy] at h2
  obtain ⟨x, hx, hx0, hxy⟩ := mid_cases (le_trans' h0 h1) h2
  exact B64.last hx hy hx0 hxy he

/-- **C63** In double precision, on such a span and with options within their ranges: the times recorded by a
`DormandPrince5` run never decrease, and all recorded times and all times at which the right-hand side is evaluated
lie in the time span. -/
theorem C63_double_run_dp5 {b : Builder B64 n P} (H : DoubleSpan b) (hS : DP5.FloatSane b.opts) {s0 s : DP5.St B64 n P}
    (hb : b.build DP5.alg = .ok s0) {k : ℕ} (hs : Steps DP5.alg none k s0 s) :
    s.sol.ts.Pairwise (fun a c => Fl.le a c = true) ∧
    (∀ x ∈ s.sol.ts, Fl.le b.t x = true ∧ Fl.le x b.tfinal = true) ∧
    ∀ c ∈ s.trace, Fl.le b.t c.time = true ∧ Fl.le c.time b.tfinal = true := by
  refine C63_float_run_dp5 laws H.toForwardSpan hS (fun t h1 h2 => ?_) hb hs
  rw [H.last h1 h2, laws.le]
  obtain ⟨r, hr⟩ := H.tfinal
  rw [hr]; simp

/-- **C62** In double precision, on such a span and with options within their ranges, a `DormandPrince5` run that ends
with `Success` ends exactly at `tfinal`. -/
theorem C62_double_final_time_dp5 {b : Builder B64 n P} (H : DoubleSpan b) (hS : DP5.FloatSane b.opts)
    {s0 s : DP5.St B64 n P} (hb : b.build DP5.alg = .ok s0) (hs : IntegrateReturns DP5.alg none s0 s)
    (hc : s.sol.retcode = .Success) : s.t = b.tfinal ∧ s.sol.ts.getLast? = some b.tfinal := by
  obtain ⟨ts, t, e1, e2⟩ := C62_final_time_dp5 hb hs hc
  obtain ⟨k, s1, h1, h2⟩ := (integrate_iff DP5.fuelMono).1 hs
  have h3 := (C63_double_run_dp5 H hS hb (.succ h1.steps h2)).2.1 t (by rw [e1]; simp)
  have h4 := H.last h3.1 h3.2
  rw [h4] at e1 e2
  exact ⟨e2, by rw [e1]; simp⟩

/-- **C62** Without the restriction on the span, `Success` may be reported at a time beyond `tfinal`: this happens in
double precision for `u' = 0`, `u(t0) = 0` with `t0 = -2 ^ -20`, `tfinal = 3 * 2 ^ -74` and the default options. -/
theorem C62_double_beyond_dp5 : ∃ s0 s : DP5.St B64 1 Unit,
    (zero64 (dbl (-1) (-20)) (dbl 3 (-74))).build DP5.alg = .ok s0 ∧ IntegrateReturns DP5.alg none s0 s ∧
    s.sol.retcode = .Success ∧ s.tfinal = dbl 3 (-74) ∧ Fl.lt s.tfinal s.t = true := by
  have hx : (dbl (-1) (-20)).x = fin (-2 ^ (-20 : ℤ)) := by change fin _ = _; norm_num
  have hy : (dbl 3 (-74)).x = fin (3 * 2 ^ (-74 : ℤ)) := by change fin _ = _; norm_num
  have hd : (dbl 3 (-74) - dbl (-1) (-20)).x = fin (2 ^ (-20 : ℤ) + 2 ^ (-72 : ℤ)) := by
    rw [sub_x, hx, hy, sub_fin, round_fin]
    have e0 : (3 * 2 ^ (-74 : ℤ) - -2 ^ (-20 : ℤ) : ℝ) = ((2 ^ 52 : ℤ) + 3 / 4 : ℝ) * 2 ^ (-72 : ℤ) := by norm_num
    have e1 : ulpExp (3 * 2 ^ (-74 : ℤ) - -2 ^ (-20 : ℤ)) = -72 := by
      rw [e0]
      exact ulpExp_eq (by positivity) (by norm_num) (.inr ⟨by norm_num, by norm_num⟩)
    have e2 : roundUnb (3 * 2 ^ (-74 : ℤ) - -2 ^ (-20 : ℤ)) = 2 ^ (-20 : ℤ) + 2 ^ (-72 : ℤ) := by
      unfold roundUnb
      rw [if_pos (by norm_num), roundPos_of e1 e0]
      have : ⌊((2 ^ 52 : ℤ) + 3 / 4 : ℝ)⌋ = 2 ^ 52 := by
        rw [Int.floor_eq_iff]; push_cast; constructor <;> norm_num
      unfold roundEven
      rw [this, if_neg (by push_cast; norm_num), if_pos (by push_cast; norm_num)]
      push_cast; norm_num
    have := huge_pos
    have hh : (1 : ℝ) < huge := rep_one.lt
    unfold round64
    rw [e2, if_neg, if_neg]
    · norm_num; linarith
    · norm_num; linarith
  have ht : (dbl (-1) (-20) + (dbl 3 (-74) - dbl (-1) (-20))).x = fin (2 ^ (-72 : ℤ)) := by
    rw [add_x, hd, hx, add_fin, round_fin]
    have := round64_rep (rep_pow (-72))
    rw [neg_add_cancel_left]; exact this
  obtain ⟨s0, s, hb, hi, hc, e, -⟩ := DP5.zero64_run (c := 2 ^ (-26 : ℤ)) hx hy (by norm_num) ⟨_, hd⟩ (rep_pow (-25))
    (rep_pow (-26)) (by norm_num) (by norm_num) (by norm_num)
  have hf : s.tfinal = dbl 3 (-74) := by
    obtain ⟨k, s1, h1, h2⟩ := (integrate_iff DP5.fuelMono).1 hi
    have : s.tfinal = s0.tfinal := by
      refine Steps.induct (alg := DP5.alg) (I := fun _ s => s.tfinal = s0.tfinal) rfl ?_ (h1.steps.succ h2)
      intro k s o s' ih h
      obtain ⟨⟨fuel, h⟩, -⟩ := stepReturns_none_iff.1 h
      obtain ⟨_, _, _, _, _, _, _, sp⟩ := DP5.step_spec h
      rw [sp.tfinal, ih]
    rw [this, ← Res.ok.inj hb]; rfl
  refine ⟨s0, s, hb, hi, hc, hf, ?_⟩
  rw [hf, e, laws.lt, ht, hy, lt_fin, decide_eq_true_eq]
  norm_num

/-- A span as required by the theorems above: from 0 to `2 ^ -20`. -/
theorem zero64_span : DoubleSpan (zero64 (dbl 0 0) (dbl 1 (-20))) where
  t := ⟨_, rfl⟩
  tfinal := ⟨_, rfl⟩
  length := by
    refine ⟨2 ^ (-20 : ℤ), ?_⟩
    change ((dbl 1 (-20) - dbl 0 0 : B64)).x = _
    rw [sub_x]
    change (fin (((1 : ℤ) : ℝ) * 2 ^ (-20 : ℤ)) - fin (((0 : ℤ) : ℝ) * 2 ^ (0 : ℤ))).round round64 = _
    have := round64_rep (rep_pow (-20))
    rw [sub_fin, round_fin]
    simpa using this
  lt := by
    change Fl.lt (dbl 0 0) (dbl 1 (-20)) = true
    rw [laws.lt]
    change Fl.lt (fin (((0 : ℤ) : ℝ) * 2 ^ (0 : ℤ))) (fin (((1 : ℤ) : ℝ) * 2 ^ (-20 : ℤ))) = true
    simp
  dt := by
    rw [laws.le_zero_iff]
    exact round_ge rep_zero (by norm_num)
  nonneg := by
    rw [laws.le_zero_iff]
    change Fl.le (fin 0) (fin (((0 : ℤ) : ℝ) * 2 ^ (0 : ℤ))) = true
    simp
  even := ⟨_, rfl, 1, -20, by norm_num, by norm_num, by norm_num, by norm_num⟩

/-- A run in double precision to which C62 and C63 apply: it takes one step and ends with `Success`. -/
example : ∃ s0 s : DP5.St B64 1 Unit, (zero64 (dbl 0 0) (dbl 1 (-20))).build DP5.alg = .ok s0 ∧
    DoubleSpan (zero64 (dbl 0 0) (dbl 1 (-20))) ∧ DP5.FloatSane (zero64 (dbl 0 0) (dbl 1 (-20))).opts ∧
    IntegrateReturns DP5.alg none s0 s ∧ s.sol.retcode = .Success ∧ s.t = dbl 1 (-20) ∧ s.sol.ts.length = 2 := by
  have hx : (dbl 0 0).x = fin 0 := by change fin _ = _; norm_num
  have hy : (dbl 1 (-20)).x = fin (2 ^ (-20 : ℤ)) := by change fin _ = _; norm_num
  obtain ⟨s0, s, hb, hi, hc, -, e⟩ := DP5.zero64_run (c := 2 ^ (-25 : ℤ)) hx hy (by norm_num) zero64_span.length
    (rep_int_pow 33 (-25)) (rep_pow (-25)) (by norm_num) (by norm_num) (by norm_num)
  exact ⟨s0, s, hb, zero64_span, DP5.default_sane64, hi, hc, (C62_double_final_time_dp5 zero64_span DP5.default_sane64 hb hi hc).1,
    by rw [e]; rfl⟩

end Cyphus
