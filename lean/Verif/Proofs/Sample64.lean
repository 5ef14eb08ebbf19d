import Verif.Proofs.Binary64Last
import Verif.Props.DP5Rounding
/-!
# Sample runs in double precision
-/

namespace Cyphus
open X
set_option linter.unusedSectionVars false
set_option autoImplicit false
noncomputable section

namespace B64

theorem ext {a b : B64} (h : a.x = b.x) : a = b := by
  cases a; cases b; simp only at h; subst h; rfl

theorem rep_int_pow (m e : ℤ) (hm : |m| < 2 ^ 53 := by norm_num) (h1 : -1074 ≤ e := by norm_num)
    (h2 : e ≤ 971 := by norm_num) : Rep64 (m * 2 ^ e) := ⟨m, e, hm, h1, h2, rfl⟩

/-- The double `m * 2 ^ e`. -/
def dbl (m e : ℤ) (hm : |m| < 2 ^ 53 := by norm_num) (h1 : -1074 ≤ e := by norm_num)
    (h2 : e ≤ 971 := by norm_num) : B64 where
  x := fin (m * 2 ^ e)
  rep r h := by rw [fin_inj] at h; rw [← h]; exact ⟨m, e, hm, h1, h2, rfl⟩

theorem round_ge {r x : ℝ} (hr : Rep64 r) (h : r ≤ x) : Fl.le (fin r) (round64 x) = true := by
  have := round64_mono h
  rwa [round64_rep hr] at this

theorem round_le {r x : ℝ} (hr : Rep64 r) (h : x ≤ r) : Fl.le (round64 x) (fin r) = true := by
  have := round64_mono h
  rwa [round64_rep hr] at this

/-- Rounding stays between numbers of the format. -/
theorem round_mid {lo hi x : ℝ} (h1 : Rep64 lo) (h2 : Rep64 hi) (hlo : lo ≤ x) (hhi : x ≤ hi) :
    ∃ y, round64 x = fin y ∧ lo ≤ y ∧ y ≤ hi :=
  mid_cases (round_ge h1 hlo) (round_le h2 hhi)

theorem rep_one : Rep64 1 := by simpa using rep_nat (k := 1) (by norm_num)
theorem rep_zero : Rep64 0 := by simpa using rep_nat (k := 0) (by norm_num)

theorem rep_pow (e : ℤ) (h1 : -1074 ≤ e := by norm_num) (h2 : e ≤ 971 := by norm_num) : Rep64 (2 ^ e) := by
  simpa using rep_int_pow 1 e (by norm_num) h1 h2

theorem add_x (a b : B64) : (a + b).x = (a.x + b.x).round round64 := rfl
theorem sub_x (a b : B64) : (a - b).x = (a.x - b.x).round round64 := rfl
theorem mul_x (a b : B64) : (a * b).x = (a.x * b.x).round round64 := rfl
theorem div_x (a b : B64) : (a / b).x = (a.x / b.x).round round64 := rfl
theorem lit_x (m : ℕ) (s : Bool) (e : ℕ) :
    (OfScientific.ofScientific m s e : B64).x = round64 (OfScientific.ofScientific m s e) := rfl

end B64

open B64

/-- The default options of `DormandPrince5` are within their ranges in double precision. -/
theorem DP5.default_sane64 : DP5.FloatSane (DP5.default_opts : Opts B64) where
  safe_pos := by
    rw [laws.lt_zero_iff]
    obtain ⟨y, e, h1, h2⟩ := round_mid (x := 0.9) (rep_pow (-1)) rep_one (by norm_num) (by norm_num)
    change Fl.lt (fin 0) (round64 0.9) = true
    rw [e]; norm_num at h1; simp; linarith
  safe_le := by
    rw [laws.le, laws.one]
    exact round_le rep_one (by norm_num)
  facl_pos := by
    rw [laws.lt_zero_iff]
    obtain ⟨y, e, h1, h2⟩ := round_mid (x := 0.2) (rep_pow (-3)) rep_one (by norm_num) (by norm_num)
    change Fl.lt (fin 0) (round64 0.2) = true
    rw [e]; norm_num at h1; simp; linarith
  facl_le := by
    rw [laws.le, laws.one]
    exact round_le rep_one (by norm_num)
  facr := by
    rw [laws.lt_zero_iff, div_x, laws.one]
    have : (DP5.default_opts : Opts B64).facr.x = fin 10 := by
      change round64 10.0 = _
      have := round64_rep (rep_nat (k := 10) (by norm_num))
      norm_num at this ⊢; exact this
    rw [this, div_fin (by norm_num), round_fin]
    obtain ⟨y, e, h1, h2⟩ := round_mid (x := 1 / 10) (rep_pow (-4)) rep_one (by norm_num) (by norm_num)
    rw [e]; norm_num at h1; simp; linarith
  expo := by
    rw [laws.le_zero_iff, sub_x]
    have h75 : (0.75 : B64).x = fin (3 / 4) := by
      rw [lit_x, round64_rep]
      · norm_num
      · have := rep_int_pow 3 (-2)
        norm_num at this ⊢; exact this
    have hp : ∃ y, (Fl.powf (DP5.default_opts : Opts B64).beta 0.75).x = fin y ∧ 0 ≤ y ∧ y ≤ 1 / 8 := by
      change ∃ y, (Fl.powf (round64 0.04) (0.75 : B64).x).round round64 = fin y ∧ _
      obtain ⟨y, e, h1, h2⟩ := round_mid (x := 0.04) (rep_pow (-5)) (rep_pow (-4)) (by norm_num) (by norm_num)
      have hy : 0 < y := by norm_num at h1; linarith
      rw [e, h75, powf_fin hy, round_fin]
      have hr : Rep64 (1 / 8) := by have := rep_pow (-3); norm_num at this ⊢; exact this
      refine round_mid rep_zero hr (Real.rpow_nonneg hy.le _) ?_
      calc y ^ (3 / 4 : ℝ) ≤ (2 ^ (-4 : ℤ) : ℝ) ^ (3 / 4 : ℝ) := Real.rpow_le_rpow hy.le h2 (by norm_num)
        _ = 1 / 8 := by
          rw [← Real.rpow_intCast, ← Real.rpow_mul (by norm_num)]
          norm_num
    obtain ⟨y, e, h1, h2⟩ := hp
    obtain ⟨z, e', h3, h4⟩ := round_mid (x := 0.2) (rep_pow (-3)) rep_one (by norm_num) (by norm_num)
    rw [e, lit_x, e', sub_fin, round_fin]
    norm_num at h3
    exact round_ge rep_zero (by linarith)
  dtmax := by rw [laws.le_zero_iff]; rfl

/-- A right-hand side that vanishes. -/
def zeroRhs64 {n : ℕ} {P : Type} : Rhs B64 n P := fun _ _ _ _ _ => 0.0

/-- The problem `u' = 0`, `u(t0) = 0` in one dimension, in double precision, with the default options. -/
def zero64 (t0 tf : B64) : Builder B64 1 Unit :=
  Builder.default DP5.alg zeroRhs64 (fun _ => 0.0) (t0, tf) ()

namespace DP5

/-- `a` is a finite number. -/
def Fine (a : B64) : Prop := ∃ r, a.x = fin r
/-- `a` is zero. -/
def Zero (a : B64) : Prop := a.x = fin 0

theorem Zero.add {a b : B64} (ha : Zero a) (hb : Zero b) : Zero (a + b) := by
  unfold Zero at *
  rw [add_x, ha, hb, add_fin, round_fin, add_zero]; exact round64_rep rep_zero

theorem Zero.mul {a b : B64} (ha : Fine a) (hb : Zero b) : Zero (a * b) := by
  obtain ⟨r, ha⟩ := ha
  unfold Zero at *
  rw [mul_x, ha, hb, mul_fin, round_fin, mul_zero]; exact round64_rep rep_zero

theorem Fine.mul {a b : B64} (ha : Fine a) (hb : ∃ r, b.x = fin r ∧ |r| ≤ 1) : Fine (a * b) := by
  obtain ⟨r, ha⟩ := ha
  obtain ⟨q, hb, hq⟩ := hb
  have hr := a.rep r ha
  have habs : Rep64 |r| := by
    obtain h | h := abs_choice r <;> rw [h]
    · exact hr
    · exact hr.neg
  have hle : |r * q| ≤ |r| := by
    rw [abs_mul]; exact mul_le_of_le_one_right (abs_nonneg _) hq
  obtain ⟨h1, h2⟩ := abs_le.1 hle
  obtain ⟨y, e, -⟩ := round_mid habs.neg habs h1 h2
  exact ⟨y, by rw [mul_x, ha, hb, mul_fin, round_fin, e]⟩

theorem fine_div {a b : B64} {p q : ℝ} {k : ℕ} (ha : a.x = fin p) (hb : b.x = fin q) (hq : 1 ≤ q) (hp : |p| ≤ k * q)
    (hk : k ≤ 2 ^ 53) : Fine (a / b) := by
  have h := abs_le.1 hp
  have hq0 : 0 < q := by linarith
  obtain ⟨y, e, -⟩ := round_mid (x := p / q) (rep_nat hk).neg (rep_nat hk)
    (by rw [le_div_iff₀ hq0]; linarith) (by rw [div_le_iff₀ hq0]; linarith)
  exact ⟨y, by rw [div_x, ha, hb, div_fin hq0.ne', round_fin, e]⟩

theorem lit_nat (m e : ℕ) (k : ℕ) (h : (OfScientific.ofScientific m true e : ℝ) = k) (hk : k ≤ 2 ^ 53) :
    (OfScientific.ofScientific m true e : B64).x = fin k := by
  rw [lit_x, h, round64_rep (rep_nat hk)]

theorem neg_x (a : B64) : (-a).x = -a.x := laws.neg a

theorem fine_A71 : Fine A71 :=
  fine_div (k := 1) (lit_nat 350 1 35 (by norm_num) (by norm_num)) (lit_nat 3840 1 384 (by norm_num) (by norm_num)) (by norm_num) (by norm_num [abs_neg]) (by norm_num)
theorem fine_A73 : Fine A73 :=
  fine_div (k := 1) (lit_nat 5000 1 500 (by norm_num) (by norm_num)) (lit_nat 11130 1 1113 (by norm_num) (by norm_num)) (by norm_num) (by norm_num [abs_neg]) (by norm_num)
theorem fine_A74 : Fine A74 :=
  fine_div (k := 1) (lit_nat 1250 1 125 (by norm_num) (by norm_num)) (lit_nat 1920 1 192 (by norm_num) (by norm_num)) (by norm_num) (by norm_num [abs_neg]) (by norm_num)
theorem fine_A75 : Fine A75 :=
  fine_div (k := 1) (by rw [neg_x, lit_nat 21870 1 2187 (by norm_num) (by norm_num), neg_fin]) (lit_nat 67840 1 6784 (by norm_num) (by norm_num)) (by norm_num) (by norm_num [abs_neg]) (by norm_num)
theorem fine_A76 : Fine A76 :=
  fine_div (k := 1) (lit_nat 110 1 11 (by norm_num) (by norm_num)) (lit_nat 840 1 84 (by norm_num) (by norm_num)) (by norm_num) (by norm_num [abs_neg]) (by norm_num)
theorem fine_E1 : Fine E1 :=
  fine_div (k := 1) (lit_nat 710 1 71 (by norm_num) (by norm_num)) (lit_nat 576000 1 57600 (by norm_num) (by norm_num)) (by norm_num) (by norm_num [abs_neg]) (by norm_num)
theorem fine_E3 : Fine E3 :=
  fine_div (k := 1) (by rw [neg_x, lit_nat 710 1 71 (by norm_num) (by norm_num), neg_fin]) (lit_nat 166950 1 16695 (by norm_num) (by norm_num)) (by norm_num) (by norm_num [abs_neg]) (by norm_num)
theorem fine_E4 : Fine E4 :=
  fine_div (k := 1) (lit_nat 710 1 71 (by norm_num) (by norm_num)) (lit_nat 19200 1 1920 (by norm_num) (by norm_num)) (by norm_num) (by norm_num [abs_neg]) (by norm_num)
theorem fine_E5 : Fine E5 :=
  fine_div (k := 1) (by rw [neg_x, lit_nat 172530 1 17253 (by norm_num) (by norm_num), neg_fin]) (lit_nat 3392000 1 339200 (by norm_num) (by norm_num)) (by norm_num) (by norm_num [abs_neg]) (by norm_num)
theorem fine_E6 : Fine E6 :=
  fine_div (k := 1) (lit_nat 220 1 22 (by norm_num) (by norm_num)) (lit_nat 5250 1 525 (by norm_num) (by norm_num)) (by norm_num) (by norm_num [abs_neg]) (by norm_num)
theorem fine_E7 : Fine E7 :=
  fine_div (k := 1) (by rw [neg_x, lit_nat 10 1 1 (by norm_num) (by norm_num), neg_fin]) (lit_nat 400 1 40 (by norm_num) (by norm_num)) (by norm_num) (by norm_num [abs_neg]) (by norm_num)

/-- With a vanishing right-hand side an attempt from zero is accepted. -/
theorem zero64_err {s : St B64 1 Unit} (hf : s.dudt = zeroRhs64) (hu : ∀ i, Zero (s.u i)) (hd : ∀ i, Zero (s.cache.du i))
    (hdt : Fine s.dt) (ho : s.opts = default_opts) : Fl.le (errOf s) 1.0 = true := by
  have z0 : Zero (0.0 : B64) := laws.zero
  have hk : ∀ (c v : Vec 1 B64) (t : B64) (i : Fin 1), Zero (s.dudt s.params c v t i) := by
    intro c v t i; rw [hf]; exact z0
  have hun : ∀ i, Zero ((compute_stages s).cache.unew i) := fun i =>
    (hu i).add (.mul hdt (((((Zero.mul fine_A71 (hd i)).add (.mul fine_A73 (hk _ _ _ _))).add
      (.mul fine_A74 (hk _ _ _ _))).add (.mul fine_A75 (hk _ _ _ _))).add (.mul fine_A76 (hk _ _ _ _))))
  have hue : ∀ i, Zero ((compute_stages s).cache.uerr i) := fun i =>
    .mul hdt ((((((Zero.mul fine_E1 (hd i)).add (.mul fine_E3 (hk _ _ _ _))).add
      (.mul fine_E4 (hk _ _ _ _))).add (.mul fine_E5 (hk _ _ _ _))).add (.mul fine_E6 (hk _ _ _ _))).add
      (.mul fine_E7 (hk _ _ _ _)))
  have hsk : ∃ y, (s.opts.abstol + s.opts.reltol * Fl.max (Fl.abs (s.u 0)) (Fl.abs ((compute_stages s).cache.unew 0))).x
      = fin y ∧ 0 < y := by
    have hm : Zero (Fl.max (Fl.abs (s.u 0)) (Fl.abs ((compute_stages s).cache.unew 0))) := by
      unfold Zero
      rw [laws.max, laws.abs, laws.abs, hu 0, hun 0]; simp
    obtain ⟨r, e, -⟩ := round_mid (x := 1e-3) (rep_pow (-20)) rep_one (by norm_num) (by norm_num)
    have hr : Zero (s.opts.reltol * Fl.max (Fl.abs (s.u 0)) (Fl.abs ((compute_stages s).cache.unew 0))) :=
      .mul ⟨r, by rw [ho]; exact e⟩ hm
    obtain ⟨a, e', h1, -⟩ := round_mid (x := 1e-7) (rep_pow (-30)) rep_one (by norm_num) (by norm_num)
    have ha : s.opts.abstol.x = fin a := by rw [ho]; exact e'
    refine ⟨a, ?_, by norm_num at h1; linarith⟩
    rw [add_x, ha, hr, add_fin, round_fin, add_zero]
    exact laws.rnd_val ha
  obtain ⟨y, ey, hy⟩ := hsk
  have hq : Zero ((compute_stages s).cache.uerr 0 / (s.opts.abstol + s.opts.reltol *
      Fl.max (Fl.abs (s.u 0)) (Fl.abs ((compute_stages s).cache.unew 0)))) := by
    unfold Zero
    rw [div_x, hue 0, ey, div_fin hy.ne', round_fin, zero_div]; exact round64_rep rep_zero
  have hs := z0.add (Zero.mul ⟨0, hq⟩ hq)
  have hE : Zero (errOf s) := by
    have hsum : Zero (sumLoop 1 0.0 fun i : Fin 1 =>
      (compute_stages s).cache.uerr i / (s.opts.abstol + s.opts.reltol *
        Fl.max (Fl.abs (s.u i)) (Fl.abs ((compute_stages s).cache.unew i))) *
      ((compute_stages s).cache.uerr i / (s.opts.abstol + s.opts.reltol *
        Fl.max (Fl.abs (s.u i)) (Fl.abs ((compute_stages s).cache.unew i))))) := hs
    have h1 : (Fl.ofNat 1 : B64).x = fin 1 := by
      rw [laws.ofNat]; simpa using round64_rep rep_one
    have key : ∀ v : B64, Zero v → Zero (Fl.sqrt (v / Fl.ofNat 1)) := by
      intro v hv
      change (ofX (Fl.sqrt (v / (Fl.ofNat 1 : B64) : B64).x)).x = fin 0
      rw [div_x, h1, hv, div_fin one_ne_zero, round_fin, zero_div, round64_rep rep_zero, sqrt_fin le_rfl,
        Real.sqrt_zero]
      exact round64_rep rep_zero
    exact key _ hsum
  rw [laws.le, hE, laws.one]; simp

/-- A run of one step that ends with `Success`, in double precision. -/
theorem zero64_run {t0 tf : B64} {x y a c : ℝ} (hx : t0.x = fin x) (hy : tf.x = fin y) (hxy : x < y)
    (hl : Fine (tf - t0)) (ha : Rep64 a) (hc : Rep64 c) (h1 : a ≤ x + 33 * 2 ^ (-25 : ℤ)) (h2 : c ≤ a - y) (hc0 : 0 < c) :
    ∃ s0 s : St B64 1 Unit, (zero64 t0 tf).build alg = .ok s0 ∧ IntegrateReturns alg none s0 s ∧
      s.sol.retcode = .Success ∧ s.t = t0 + (tf - t0) ∧ s.sol.ts = [t0, t0 + (tf - t0)] := by
  obtain ⟨s0, hb⟩ : ∃ s0 : St B64 1 Unit, (zero64 t0 tf).build alg = .ok s0 := ⟨_, rfl⟩
  have hs0 := Res.ok.inj hb
  have htd : s0.tdir.x = fin 1 := by
    rw [← hs0]
    change (Fl.copysign 1.0 (tf - t0) : B64).x = _
    rw [laws.copysign, laws.one]
    · simp
    · rw [sub_x, hx, hy, sub_fin, round_fin]; exact laws.rnd_pos hx hy hxy
  have hclamp : clampLast s0 = { s0 with dt := s0.tfinal - s0.t, cache := { s0.cache with last := true } } := by
    unfold clampLast
    rw [if_pos]
    have e1 : ∃ r, (1.01 * s0.dt).x = fin r ∧ 33 * 2 ^ (-25 : ℤ) ≤ r := by
      obtain ⟨p, ep, p1, -⟩ := round_mid (x := 1.01) rep_one (rep_pow 1) (by norm_num) (by norm_num)
      obtain ⟨q, eq, q1, q2⟩ := round_mid (x := 1e-6) (rep_int_pow 33 (-25)) rep_one (by norm_num) (by norm_num)
      have hp : (1.01 : B64).x = fin p := ep
      have hq : s0.dt.x = fin q := by rw [← hs0]; exact eq
      push_cast at q1
      have : (0 : ℝ) < 33 * 2 ^ (-25 : ℤ) := by positivity
      have hr := round_ge (rep_int_pow 33 (-25)) (x := p * q) (by push_cast; nlinarith)
      push_cast at hr
      have p2 : p ≤ 2 := by
        have := round_le (rep_pow 1) (x := 1.01) (by norm_num)
        rw [ep] at this; simpa using this
      have hr2 := round_le (rep_pow 1) (x := p * q) (by norm_num; nlinarith)
      rw [mul_x, hp, hq, mul_fin, round_fin]
      obtain ⟨z, e, h, -⟩ := mid_cases hr hr2
      exact ⟨z, e, h⟩
    obtain ⟨r, er, hr⟩ := e1
    have ht : s0.t.x = fin x := by rw [← hs0]; exact hx
    have htf : s0.tfinal.x = fin y := by rw [← hs0]; exact hy
    have e2 : Fl.le (fin a) ((s0.t + 1.01 * s0.dt).x) = true := by
      rw [add_x, er, ht, add_fin, round_fin]
      exact round_ge ha (by linarith)
    have e3 : Fl.le (fin c) ((s0.t + 1.01 * s0.dt - s0.tfinal).x) = true := by
      rw [sub_x, htf]
      obtain ⟨z, e, hz⟩ | e := ge_cases e2
      · rw [e, sub_fin, round_fin]; exact round_ge hc (by linarith)
      · rw [e]; rfl
    change Fl.lt (0.0 : B64) _ = true
    rw [laws.lt_zero_iff, mul_x, htd]
    obtain ⟨z, e, hz⟩ | e := ge_cases e3
    · rw [e, mul_fin, round_fin, mul_one, laws.rnd_val e]; simp; linarith
    · rw [e, pinf_mul one_pos]; rfl
  have herr : Fl.le (errOf (clampLast s0)) 1.0 = true := by
    refine zero64_err ?_ ?_ ?_ ?_ ?_ <;> rw [hclamp]
    · rw [← hs0]; rfl
    · intro i; rw [← hs0]; exact laws.zero
    · intro i; rw [← hs0]; exact laws.zero
    · rw [← hs0]; exact hl
    · rw [← hs0]; rfl
  have hstep : step 1 s0 = .ok (finishStep (accepted (clampLast s0))) :=
    step_ok.2 ⟨0, clampLast s0, Nat.one_pos, .zero _, herr, by rw [hclamp, ← hs0]; change 1000 ≠ 0; decide, rfl⟩
  have hcode : (finishStep (accepted (clampLast s0))).sol.retcode = .Success := by
    rw [finishStep_retcode, accepted_last, hclamp]; rfl
  have ht : (accepted (clampLast s0)).t = t0 + (tf - t0) := by
    rw [accepted_t, hclamp, ← hs0]; rfl
  refine ⟨s0, _, hb, ?_, hcode, ?_, ?_⟩
  · exact (integrate_iff DP5.fuelMono).2 ⟨0, s0, .zero _, stepReturns_none_iff.2 ⟨⟨1, hstep⟩, by rw [hcode]; rfl⟩⟩
  · rw [finishStep_t, ht]
  · rw [finishStep_ts, ht, accepted_sol, hclamp, ← hs0]; rfl

end DP5
end
end Cyphus
