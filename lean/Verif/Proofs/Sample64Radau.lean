import Verif.Proofs.Sample64
import Verif.Props.RadauRounding
/-!
# Sample runs of `Radau5` in double precision
-/

namespace Cyphus
open X
set_option linter.unusedSectionVars false
set_option autoImplicit false
noncomputable section
open B64

namespace B64
open DP5 (Zero Fine)

/-- `a` lies between the powers `2 ^ i` and `2 ^ j`. -/
def In (i j : ℤ) (a : B64) : Prop := ∃ r, a.x = fin r ∧ (2 : ℝ) ^ i ≤ r ∧ r ≤ 2 ^ j

theorem In.pos {i j : ℤ} {a : B64} (h : In i j a) : ∃ r, a.x = fin r ∧ 0 < r := by
  obtain ⟨r, e, h, -⟩ := h
  exact ⟨r, e, lt_of_lt_of_le (by positivity) h⟩

theorem In.fine {i j : ℤ} {a : B64} (h : In i j a) : Fine a := by
  obtain ⟨r, e, -⟩ := h
  exact ⟨r, e⟩

theorem In.mono {i j k l : ℤ} {a : B64} (h : In i j a) (h1 : k ≤ i) (h2 : j ≤ l) : In k l a := by
  obtain ⟨r, e, g1, g2⟩ := h
  exact ⟨r, e, (zpow_le_zpow_right₀ (by norm_num) h1).trans g1, g2.trans (zpow_le_zpow_right₀ (by norm_num) h2)⟩

theorem in_lit (m : ℕ) (s : Bool) (e : ℕ) (i j : ℤ) (h1 : (2 : ℝ) ^ i ≤ OfScientific.ofScientific m s e)
    (h2 : (OfScientific.ofScientific m s e : ℝ) ≤ 2 ^ j) (hi : -1074 ≤ i := by norm_num) (hi' : i ≤ 971 := by norm_num)
    (hj : -1074 ≤ j := by norm_num) (hj' : j ≤ 971 := by norm_num) : In i j (OfScientific.ofScientific m s e) := by
  obtain ⟨y, ey, y1, y2⟩ := round_mid (rep_pow i hi hi') (rep_pow j hj hj') h1 h2
  exact ⟨y, by rw [lit_x, ey], y1, y2⟩

theorem In.mul {i j k l : ℤ} {a b : B64} (ha : In i j a) (hb : In k l b) (h1 : -1074 ≤ i + k := by norm_num)
    (h2 : i + k ≤ 971 := by norm_num) (h3 : -1074 ≤ j + l := by norm_num) (h4 : j + l ≤ 971 := by norm_num) :
    In (i + k) (j + l) (a * b) := by
  obtain ⟨r, ea, r1, r2⟩ := ha
  obtain ⟨q, eb, q1, q2⟩ := hb
  have r0 : 0 < r := lt_of_lt_of_le (by positivity) r1
  have q0 : 0 < q := lt_of_lt_of_le (by positivity) q1
  obtain ⟨y, e, y1, y2⟩ := round_mid (x := r * q) (rep_pow (i + k) h1 h2) (rep_pow (j + l) h3 h4)
    (by rw [zpow_add₀ (by norm_num)]; exact mul_le_mul r1 q1 (by positivity) r0.le)
    (by rw [zpow_add₀ (by norm_num)]; exact mul_le_mul r2 q2 q0.le (by positivity))
  exact ⟨y, by rw [mul_x, ea, eb, mul_fin, round_fin, e], y1, y2⟩

theorem In.div {i j k l : ℤ} {a b : B64} (ha : In i j a) (hb : In k l b) (h1 : -1074 ≤ i - l := by norm_num)
    (h2 : i - l ≤ 971 := by norm_num) (h3 : -1074 ≤ j - k := by norm_num) (h4 : j - k ≤ 971 := by norm_num) :
    In (i - l) (j - k) (a / b) := by
  obtain ⟨r, ea, r1, r2⟩ := ha
  obtain ⟨q, eb, q1, q2⟩ := hb
  have r0 : 0 < r := lt_of_lt_of_le (by positivity) r1
  have q0 : 0 < q := lt_of_lt_of_le (by positivity) q1
  obtain ⟨y, e, y1, y2⟩ := round_mid (x := r / q) (rep_pow (i - l) h1 h2) (rep_pow (j - k) h3 h4)
    (by rw [zpow_sub₀ (by norm_num)]; exact div_le_div₀ r0.le r1 q0 q2)
    (by rw [zpow_sub₀ (by norm_num)]; exact div_le_div₀ (by positivity) r2 (by positivity) q1)
  exact ⟨y, by rw [div_x, ea, eb, div_fin q0.ne', round_fin, e], y1, y2⟩

theorem In.add {i j : ℤ} {a b : B64} (ha : In i j a) (hb : In i j b) (h1 : -1074 ≤ i := by norm_num)
    (h2 : i ≤ 971 := by norm_num) (h3 : -1074 ≤ j + 1 := by norm_num) (h4 : j + 1 ≤ 971 := by norm_num) :
    In i (j + 1) (a + b) := by
  obtain ⟨r, ea, r1, r2⟩ := ha
  obtain ⟨q, eb, q1, q2⟩ := hb
  have : (0 : ℝ) < 2 ^ i := by positivity
  obtain ⟨y, e, y1, y2⟩ := round_mid (x := r + q) (rep_pow i h1 h2) (rep_pow (j + 1) h3 h4)
    (by linarith) (by rw [zpow_add₀ (by norm_num), zpow_one]; linarith)
  exact ⟨y, by rw [add_x, ea, eb, add_fin, round_fin, e], y1, y2⟩

theorem In.add_zero {i j : ℤ} {a b : B64} (ha : In i j a) (hb : Zero b) : In i j (a + b) := by
  obtain ⟨r, ea, r1, r2⟩ := ha
  refine ⟨r, ?_, r1, r2⟩
  rw [add_x, ea, hb, add_fin, _root_.add_zero, round_fin]; exact laws.rnd_val ea

theorem In.sub_zero {i j : ℤ} {a b : B64} (ha : In i j a) (hb : Zero b) : In i j (a - b) := by
  obtain ⟨r, ea, r1, r2⟩ := ha
  refine ⟨r, ?_, r1, r2⟩
  rw [sub_x, ea, hb, sub_fin, _root_.sub_zero, round_fin]; exact laws.rnd_val ea

theorem In.abs {i j : ℤ} {a : B64} (ha : In i j a) : In i j (Fl.abs a) := by
  obtain ⟨q, e, q0⟩ := ha.pos
  obtain ⟨r, ea, r1, r2⟩ := ha
  rw [ea, fin_inj] at e; subst e
  exact ⟨r, by rw [laws.abs, ea, abs_fin, abs_of_pos q0], r1, r2⟩

theorem In.ne {i j : ℤ} {a : B64} (ha : In i j a) : Fl.eq a 0.0 = false := by
  obtain ⟨q, e, q0⟩ := ha.pos
  have : Fl.eq a (0.0 : B64) = Fl.eq a.x (0.0 : B64).x := rfl
  rw [this, laws.zero, e, eq_fin]
  simpa using q0.ne'

theorem fine_neg {a : B64} (ha : Fine a) : Fine (-a) := by
  obtain ⟨r, e⟩ := ha
  exact ⟨-r, by rw [DP5.neg_x, e, neg_fin]⟩

theorem zero_neg {a : B64} (ha : Zero a) : Zero (-a) := by
  unfold DP5.Zero at *
  rw [DP5.neg_x, ha, neg_fin, neg_zero]

theorem zero_sub {a b : B64} (ha : Zero a) (hb : Zero b) : Zero (a - b) := by
  unfold DP5.Zero at *
  rw [sub_x, ha, hb, sub_fin, round_fin, _root_.sub_zero]; exact round64_rep rep_zero

theorem zero_mul' {a b : B64} (ha : Zero a) (hb : Fine b) : Zero (a * b) := by
  obtain ⟨r, hb⟩ := hb
  unfold DP5.Zero at *
  rw [mul_x, ha, hb, mul_fin, round_fin, zero_mul]; exact round64_rep rep_zero

theorem zero_div' {i j : ℤ} {a b : B64} (ha : Zero a) (hb : In i j b) : Zero (a / b) := by
  obtain ⟨r, hb, r0⟩ := hb.pos
  unfold DP5.Zero at *
  rw [div_x, ha, hb, div_fin r0.ne', round_fin, zero_div]; exact round64_rep rep_zero

theorem zero_sqrt {a : B64} (ha : Zero a) : Zero (Fl.sqrt a) := by
  unfold DP5.Zero at *
  change (ofX (Fl.sqrt a.x)).x = _
  rw [ha, sqrt_fin le_rfl, Real.sqrt_zero]; exact round64_rep rep_zero

theorem zero_sq {a : B64} (ha : Zero a) : Zero (Fl.powi a 2) := by
  unfold DP5.Zero at *
  change (ofX (Fl.powi a.x 2)).x = _
  rw [ha, powi_fin _ _ (.inr (by norm_num)), show (0 : ℝ) ^ (2 : ℤ) = 0 by norm_num]
  exact round64_rep rep_zero

theorem zero_lit : Zero (0.0 : B64) := laws.zero

theorem eps_x : (Fl.eps : B64).x = fin (2 ^ (-52 : ℤ)) := round64_rep (rep_pow (-52))

theorem In.max {i j : ℤ} {a b : B64} (ha : In i j a) (hb : In i j b) : In i j (Fl.max a b) := by
  have : (Fl.max a b : B64).x = (ofX (Fl.max a.x b.x)).x := rfl
  obtain h | h := max_mem a.x b.x
  · obtain ⟨r, ea, r1, r2⟩ := ha
    exact ⟨r, by rw [this, h, ea]; exact laws.rnd_val ea, r1, r2⟩
  · obtain ⟨r, ea, r1, r2⟩ := hb
    exact ⟨r, by rw [this, h, ea]; exact laws.rnd_val ea, r1, r2⟩

theorem In.min {i j : ℤ} {a b : B64} (ha : In i j a) (hb : In i j b) : In i j (Fl.min a b) := by
  have : (Fl.min a b : B64).x = (ofX (Fl.min a.x b.x)).x := rfl
  obtain h | h := min_mem a.x b.x
  · obtain ⟨r, ea, r1, r2⟩ := ha
    exact ⟨r, by rw [this, h, ea]; exact laws.rnd_val ea, r1, r2⟩
  · obtain ⟨r, ea, r1, r2⟩ := hb
    exact ⟨r, by rw [this, h, ea]; exact laws.rnd_val ea, r1, r2⟩

theorem In.sqrt {i j : ℤ} {a : B64} (ha : In (i + i) (j + j) a) (h1 : -1074 ≤ i := by norm_num)
    (h2 : i ≤ 971 := by norm_num) (h3 : -1074 ≤ j := by norm_num) (h4 : j ≤ 971 := by norm_num) : In i j (Fl.sqrt a) := by
  obtain ⟨q, e, q0⟩ := ha.pos
  obtain ⟨r, ea, r1, r2⟩ := ha
  rw [ea, fin_inj] at e; subst e
  rw [zpow_add₀ (by norm_num)] at r1 r2
  obtain ⟨y, e, y1, y2⟩ := round_mid (x := Real.sqrt r) (rep_pow i h1 h2) (rep_pow j h3 h4)
    (Real.le_sqrt_of_sq_le (by rw [sq]; exact r1)) ((Real.sqrt_le_left (by positivity)).2 (by rw [sq]; exact r2))
  refine ⟨y, ?_, y1, y2⟩
  change (ofX (Fl.sqrt a.x)).x = _
  rw [ea, sqrt_fin q0.le]
  exact e

theorem In.powf {i : ℤ} {a b : B64} (ha : In i 0 a) (hb : In (-1) 0 b) (h1 : -1074 ≤ i := by norm_num)
    (h2 : i ≤ 971 := by norm_num) : In i 0 (Fl.powf a b) := by
  obtain ⟨q, e, q0⟩ := ha.pos
  obtain ⟨r, ea, r1, r2⟩ := ha
  rw [ea, fin_inj] at e; subst e
  obtain ⟨p, eb, p1, p2⟩ := hb
  rw [zpow_zero] at r2 p2
  have p0 : 0 < p := lt_of_lt_of_le (by positivity) p1
  obtain ⟨y, e, y1, y2⟩ := round_mid (x := r ^ p) (rep_pow i h1 h2) (rep_pow 0)
    (r1.trans (by simpa using Real.rpow_le_rpow_of_exponent_ge q0 r2 p2))
    (by rw [zpow_zero]; exact Real.rpow_le_one q0.le r2 p0.le)
  refine ⟨y, ?_, y1, y2⟩
  change (ofX (Fl.powf a.x b.x)).x = _
  rw [ea, eb, powf_fin q0]
  exact e

/-- `a` is at most `2 ^ j` in absolute value. -/
def Bd (j : ℤ) (a : B64) : Prop := ∃ r, a.x = fin r ∧ |r| ≤ 2 ^ j

theorem Bd.fine {j : ℤ} {a : B64} (h : Bd j a) : Fine a := by
  obtain ⟨r, e, -⟩ := h
  exact ⟨r, e⟩

theorem In.bd {i j : ℤ} {a : B64} (h : In i j a) : Bd j a := by
  obtain ⟨q, e, q0⟩ := h.pos
  obtain ⟨r, ea, r1, r2⟩ := h
  rw [ea, fin_inj] at e; subst e
  exact ⟨r, ea, by rwa [abs_of_pos q0]⟩

theorem Bd.neg {j : ℤ} {a : B64} (h : Bd j a) : Bd j (-a) := by
  obtain ⟨r, e, h⟩ := h
  exact ⟨-r, by rw [DP5.neg_x, e, neg_fin], by rwa [abs_neg]⟩

theorem bd_round {j : ℤ} {x : ℝ} (h : |x| ≤ 2 ^ j) (h1 : -1074 ≤ j) (h2 : j ≤ 971) :
    ∃ y, round64 x = fin y ∧ |y| ≤ 2 ^ j := by
  rw [abs_le] at h
  obtain ⟨y, e, y1, y2⟩ := round_mid (rep_pow j h1 h2).neg (rep_pow j h1 h2) h.1 h.2
  exact ⟨y, e, abs_le.2 ⟨y1, y2⟩⟩

theorem Bd.add {j : ℤ} {a b : B64} (ha : Bd j a) (hb : Bd j b) (h1 : -1074 ≤ j + 1 := by norm_num)
    (h2 : j + 1 ≤ 971 := by norm_num) : Bd (j + 1) (a + b) := by
  obtain ⟨r, ea, r1⟩ := ha
  obtain ⟨q, eb, q1⟩ := hb
  obtain ⟨y, e, y1⟩ := bd_round (x := r + q) (j := j + 1)
    ((abs_add_le _ _).trans (by rw [zpow_add₀ (by norm_num), zpow_one]; linarith)) h1 h2
  exact ⟨y, by rw [add_x, ea, eb, add_fin, round_fin, e], y1⟩

theorem Bd.div {j k l : ℤ} {a b : B64} (ha : Bd j a) (hb : In k l b) (h1 : -1074 ≤ j - k := by norm_num)
    (h2 : j - k ≤ 971 := by norm_num) : Bd (j - k) (a / b) := by
  obtain ⟨q', e', q0⟩ := hb.pos
  obtain ⟨r, ea, r1⟩ := ha
  obtain ⟨q, eb, q1, -⟩ := hb
  rw [eb, fin_inj] at e'; subst e'
  obtain ⟨y, e, y1⟩ := bd_round (x := r / q) (j := j - k)
    (by rw [zpow_sub₀ (by norm_num), abs_div, abs_of_pos q0]; exact div_le_div₀ (by positivity) r1 (by positivity) q1) h1 h2
  exact ⟨y, by rw [div_x, ea, eb, div_fin q0.ne', round_fin, e], y1⟩

theorem Bd.mono {j k : ℤ} {a : B64} (h : Bd j a) (h1 : j ≤ k) : Bd k a := by
  obtain ⟨r, e, h⟩ := h
  exact ⟨r, e, h.trans (zpow_le_zpow_right₀ (by norm_num) h1)⟩

theorem one_mul_in {i j : ℤ} {a b : B64} (ha : In i j a) (hb : b = 1.0) : In i j (a * b) := by
  obtain ⟨r, ea, r1, r2⟩ := ha
  exact ⟨r, by rw [hb, mul_x, ea, laws.one, mul_fin, mul_one, round_fin]; exact laws.rnd_val ea, r1, r2⟩

end B64

/-- The default options of `Radau5` are within their ranges in double precision. -/
theorem Radau.default_sane64 : Radau.FloatSane (Radau.default_opts : Opts B64) where
  safe_pos := by
    rw [laws.lt_zero_iff]
    obtain ⟨r, e, r0⟩ := (in_lit 9 true 1 (-1) 0 (by norm_num) (by norm_num)).pos
    change Fl.lt (fin 0) (0.9 : B64).x = true
    rw [show (0.9 : B64) = OfScientific.ofScientific 9 true 1 from rfl, e]; simpa using r0
  safe_le := by
    rw [laws.le, laws.one]
    exact round_le rep_one (by norm_num)
  facl := by
    rw [laws.le, laws.one]
    exact round_ge rep_one (by norm_num)
  facr := by
    rw [laws.lt_zero_iff]
    have h1 := in_lit 10 true 1 0 0 (by norm_num) (by norm_num)
    have h8 := in_lit 80 true 1 3 3 (by norm_num) (by norm_num)
    obtain ⟨r, e, r0⟩ := (h1.div h8).pos
    change Fl.lt (fin 0) (1.0 / 8.0 : B64).x = true
    rw [show (1.0 / 8.0 : B64) = OfScientific.ofScientific 10 true 1 / OfScientific.ofScientific 80 true 1 from rfl, e]
    simpa using r0
  dtmax := by rw [laws.le_zero_iff]; rfl
  fac := by
    intro k hk
    have hk : k ≤ 7 := hk
    rw [laws.lt_zero_iff]
    have hn : ∀ m : ℕ, 1 ≤ m → m ≤ 32 → In 0 5 (Fl.ofNat m : B64) := by
      intro m h1 h2
      refine ⟨m, ?_, by simpa using h1, by norm_num; exact_mod_cast h2⟩
      rw [laws.ofNat]; exact round64_rep (rep_nat (by omega))
    have h9 := in_lit 9 true 1 (-1) 0 (by norm_num) (by norm_num)
    obtain ⟨r, e, r0⟩ := ((h9.mul (hn (1 + 2 * 7) (by norm_num) (by norm_num))).div (hn (k + 2 * 7) (by omega) (by omega))).pos
    change Fl.lt (fin 0) ((0.9 : B64) * Fl.ofNat (1 + 2 * 7) / Fl.ofNat (k + 2 * 7) : B64).x = true
    rw [show (0.9 : B64) = OfScientific.ofScientific 9 true 1 from rfl, e]
    simpa using r0

/-- The problem `u' = 0`, `u(t0) = 0` in one dimension with its Jacobian, in double precision, with the default options
of `Radau5`. -/
def zero64r (t0 tf : B64) : Builder B64 1 Unit :=
  (Builder.default Radau.alg zeroRhs64 (fun _ => 0.0) (t0, tf) ()).set (.dfdu fun _ _ _ _ _ _ => 0.0)

namespace Radau
open DP5 (Zero Fine)

/-- The tolerances after the adjustment. -/
theorem adjust_reltol : In (-14) 0 (adjustOpts (default_opts : Opts B64)).reltol := by
  have h1 := in_lit 1 true 3 (-10) 0 (by norm_num) (by norm_num)
  have h2 := (in_lit 20 true 1 1 1 (by norm_num) (by norm_num)).div (in_lit 30 true 1 1 2 (by norm_num) (by norm_num))
  have h3 := in_lit 1 true 1 (-4) 0 (by norm_num) (by norm_num)
  exact (h3.mul (h1.powf (h2.mono (by norm_num) (by norm_num)))).mono (by norm_num) (by norm_num)

theorem adjust_abstol : In (-50) 0 (adjustOpts (default_opts : Opts B64)).abstol := by
  have h1 := in_lit 1 true 3 (-10) (-9) (by norm_num) (by norm_num)
  have h2 := in_lit 1 true 7 (-24) (-23) (by norm_num) (by norm_num)
  exact (adjust_reltol.mul (h2.div h1)).mono (by norm_num) (by norm_num)

theorem adjust_fnewt : In (-60) 60 (adjustOpts (default_opts : Opts B64)).fnewt := by
  have h1 : In (-52) (-52) (Fl.eps : B64) := ⟨_, eps_x, le_rfl, le_rfl⟩
  have h2 := in_lit 100 true 1 3 4 (by norm_num) (by norm_num)
  have h3 := in_lit 3 true 2 (-6) 0 (by norm_num) (by norm_num)
  have h4 := ((h2.mul h1).div adjust_reltol).mono (k := -60) (l := 60) (by norm_num) (by norm_num)
  have h5 := (In.sqrt (i := -7) (j := 0) (adjust_reltol.mono (by norm_num) (by norm_num))).mono (k := -60) (l := 60) (by norm_num) (by norm_num)
  have e : Fl.le (0.0 : B64) 0.0 = true := by rw [laws.le, laws.zero]; simp
  simp only [adjustOpts]
  rw [if_pos (show Fl.le (default_opts : Opts B64).fnewt 0.0 = true from e)]
  exact h4.max ((h3.mono (by norm_num) (by norm_num)).min h5)

/-- The state of the run until the decision. -/
structure Z (t0 d : B64) (s : St B64 1 Unit) : Prop where
  dudt : s.dudt = zeroRhs64
  u : ∀ i, Zero (s.u i)
  u0 : ∀ i, Zero (s.cache.u0 i)
  dt : s.dt = d
  time : s.t = t0
  opts : s.opts = adjustOpts default_opts
  first : s.cache.first = true
  last : s.cache.last = true
  reject : s.cache.reject = false
  scal : ∀ i, In (-50) 0 (s.cache.scal i)
  jac : ∀ i j, Zero (s.cache.dfdu i j)
  ts : s.sol.ts = [t0]
  faccon : s.cache.faccon.x = fin 1

/-- The decompositions. -/
structure ZD (s : St B64 1 Unit) : Prop where
  fac1 : Fine s.cache.fac1
  alphn : Fine s.cache.alphn
  betan : Fine s.cache.betan
  e1 : In 0 40 (s.cache.e1 0 0)
  e2r : In 0 40 (s.cache.e2r 0 0)
  e2i : In 0 40 (s.cache.e2i 0 0)

structure ZZ (s : St B64 1 Unit) : Prop where
  z1 : ∀ i, Zero (s.cache.z1 i)
  z2 : ∀ i, Zero (s.cache.z2 i)
  z3 : ∀ i, Zero (s.cache.z3 i)
  f1 : ∀ i, Zero (s.cache.f1 i)
  f2 : ∀ i, Zero (s.cache.f2 i)
  f3 : ∀ i, Zero (s.cache.f3 i)

variable {t0 d : B64} {s : St B64 1 Unit}

theorem dec_one (a : Linalg.NMat B64) (ip : ℕ → ℤ) (h : Fl.eq (a 0 0) 0.0 = false) :
    Linalg.dec 1 a ip = .ok (⟨a, Linalg.set1 ip 0 1, none⟩, 0) := by
  simp [Linalg.dec, Linalg.decEnd, h]

theorem decc_one (a b : Linalg.NMat B64) (ip : ℕ → ℤ) (h : Fl.eq (Fl.abs (a 0 0) + Fl.abs (b 0 0)) 0.0 = false) :
    Linalg.decc 1 a b ip = .ok (⟨a, b, Linalg.set1 ip 0 1, none⟩, 0) := by
  simp [Linalg.decc, Linalg.deccEnd, h]

/-- The decompositions succeed. -/
theorem Z.dec (H : Z t0 d s) (hd : In (-30) 0 d) : ∃ s', perform_decompositions s = .ok (s', true) ∧ Z t0 d s' ∧ ZD s' ∧
    s'.stats.steps = s.stats.steps ∧ s'.sol.retcode = s.sol.retcode := by
  have h1 : In 0 40 (U1 / s.dt) := by
    rw [H.dt]
    exact ((in_lit 3637834252744496 true 15 0 2 (by norm_num) (by norm_num)).div hd).mono (by norm_num) (by norm_num)
  have h2 : In 0 40 (ALPHA / s.dt) := by
    rw [H.dt]
    exact ((in_lit 2681082873627752 true 15 0 2 (by norm_num) (by norm_num)).div hd).mono (by norm_num) (by norm_num)
  have h3 : In 0 40 (BETA / s.dt) := by
    rw [H.dt]
    exact ((in_lit 3050430199247411 true 15 0 2 (by norm_num) (by norm_num)).div hd).mono (by norm_num) (by norm_num)
  have g1 : In 0 40 (U1 / s.dt * (eye (0 : _root_.Fin 1) 0) - s.cache.dfdu 0 0) :=
    (one_mul_in h1 rfl).sub_zero (H.jac 0 0)
  have g2 : In 0 40 (ALPHA / s.dt * (eye (0 : _root_.Fin 1) 0) - s.cache.dfdu 0 0) :=
    (one_mul_in h2 rfl).sub_zero (H.jac 0 0)
  have g3 : In 0 40 (BETA / s.dt * (eye (0 : _root_.Fin 1) 0)) := one_mul_in h3 rfl
  have n1 := g1.ne
  have n2 := (g2.abs.add g3.abs).ne
  obtain ⟨a, ha⟩ : ∃ a : St B64 1 Unit, { s with cache := { s.cache with
    fac1 := U1 / s.dt, alphn := ALPHA / s.dt, betan := BETA / s.dt } } = a := ⟨_, rfl⟩
  have A : Z t0 d a ∧ a.stats.steps = s.stats.steps ∧ a.sol.retcode = s.sol.retcode ∧ a.cache.fac1 = U1 / s.dt ∧
      a.cache.alphn = ALPHA / s.dt ∧ a.cache.betan = BETA / s.dt ∧ a.cache.dfdu = s.cache.dfdu := by
    rw [← ha]
    exact ⟨⟨H.1, H.2, H.3, H.4, H.5, H.6, H.7, H.8, H.9, H.10, H.11, H.12, H.13⟩, rfl, rfl, rfl, rfl, rfl, rfl⟩
  simp only [perform_decompositions]
  rw [ha]
  clear ha
  obtain ⟨A, a1, a2, a3, a4, a5, a6⟩ := A
  rw [← a3, ← a6] at g1 n1
  rw [← a4, ← a5, ← a6] at n2
  rw [← a4, ← a6] at g2
  rw [← a5] at g3
  have d1 : decomp_real a = .ok ({ a with cache := { a.cache with
      e1 := resM (extM (fun i j : _root_.Fin 1 => a.cache.fac1 * eye i j - a.cache.dfdu i j)),
      ip1 := Linalg.set1 a.cache.ip1 0 1 } }, 0) := by
    simp only [decomp_real]
    rw [dec_one _ _ n1]
    rfl
  rw [d1]
  simp only [Res.bind]
  rw [if_pos trivial]
  obtain ⟨b, hb⟩ : ∃ b : St B64 1 Unit, { a with cache := { a.cache with
      e1 := resM (extM (fun i j : _root_.Fin 1 => a.cache.fac1 * eye i j - a.cache.dfdu i j)),
      ip1 := Linalg.set1 a.cache.ip1 0 1 } } = b := ⟨_, rfl⟩
  have B : Z t0 d b ∧ b.stats.steps = s.stats.steps ∧ b.sol.retcode = s.sol.retcode ∧ b.cache.fac1 = U1 / s.dt ∧
      b.cache.alphn = a.cache.alphn ∧ b.cache.betan = a.cache.betan ∧ b.cache.dfdu = a.cache.dfdu ∧
      In 0 40 (b.cache.e1 0 0) := by
    rw [← hb]
    exact ⟨⟨A.1, A.2, A.3, A.4, A.5, A.6, A.7, A.8, A.9, A.10, A.11, A.12, A.13⟩, a1, a2, a3, rfl, rfl, rfl, g1⟩
  rw [hb]
  clear hb
  obtain ⟨B, b1, b2, b3, b4, b5, b6, b7⟩ := B
  rw [← b4, ← b5, ← b6] at n2
  rw [← b4, ← b6] at g2
  rw [← b5] at g3
  have d2 : decomp_complex b = .ok ({ b with cache := { b.cache with
      e2r := resM (extM (fun i j : _root_.Fin 1 => b.cache.alphn * eye i j - b.cache.dfdu i j)),
      e2i := resM (extM (fun i j : _root_.Fin 1 => b.cache.betan * eye i j)),
      ip2 := Linalg.set1 b.cache.ip2 0 1 } }, 0) := by
    simp only [decomp_complex]
    rw [decc_one _ _ _ n2]
    rfl
  rw [d2]
  refine ⟨_, rfl, ⟨B.1, B.2, B.3, B.4, B.5, B.6, B.7, B.8, B.9, B.10, B.11, B.12, B.13⟩,
    ⟨?_, ?_, ?_, b7, g2, g3⟩, b1, b2⟩
  · change Fine b.cache.fac1; rw [b3]; exact h1.fine
  · change Fine b.cache.alphn; rw [b4, a4]; exact h2.fine
  · change Fine b.cache.betan; rw [b5, a5]; exact h3.fine

theorem fine_lit (m : ℕ) (e : ℕ) (i j : ℤ) (h1 : (2 : ℝ) ^ i ≤ OfScientific.ofScientific m true e)
    (h2 : (OfScientific.ofScientific m true e : ℝ) ≤ 2 ^ j) (hi : -1074 ≤ i := by norm_num) (hi' : i ≤ 971 := by norm_num)
    (hj : -1074 ≤ j := by norm_num) (hj' : j ≤ 971 := by norm_num) : Fine (OfScientific.ofScientific m true e) :=
  (in_lit m true e i j h1 h2 hi hi' hj hj').fine

/-- A pass of the Newton iteration. -/
theorem Z.newton (H : Z t0 d s) (D : ZD s) : ∃ s', newton s = .ok (s', true) ∧ Z t0 d s' ∧ ZD s' ∧ ZZ s' ∧
    s'.stats.steps = s.stats.steps ∧ s'.sol.retcode = s.sol.retcode := by
  have hTI11 : Fine TI11 := fine_lit 43255798900631553510 19 2 3 (by norm_num) (by norm_num)
  have hTI12 : Fine TI12 := fine_lit 33919925181580986954 20 (-2) 3 (by norm_num) (by norm_num)
  have hTI13 : Fine TI13 := fine_lit 54177053993587487119 20 (-2) 3 (by norm_num) (by norm_num)
  have hTI21 : Fine TI21 := fine_neg (fine_lit 41787185915519047273 19 (-2) 3 (by norm_num) (by norm_num))
  have hTI22 : Fine TI22 := fine_neg (fine_lit 32768282076106238708 20 (-2) 3 (by norm_num) (by norm_num))
  have hTI23 : Fine TI23 := fine_lit 47662355450055045196 20 (-2) 3 (by norm_num) (by norm_num)
  have hTI31 : Fine TI31 := fine_neg (fine_lit 50287263494578687595 20 (-2) 3 (by norm_num) (by norm_num))
  have hTI32 : Fine TI32 := fine_lit 25719269498556054292 19 (-2) 3 (by norm_num) (by norm_num)
  have hTI33 : Fine TI33 := fine_neg (fine_lit 59603920482822492497 20 (-2) 3 (by norm_num) (by norm_num))
  have hT11 : Fine T11 := fine_lit 91232394870892942792 21 (-5) 3 (by norm_num) (by norm_num)
  have hT12 : Fine T12 := fine_neg (fine_lit 14125529502095420843 20 (-5) 3 (by norm_num) (by norm_num))
  have hT13 : Fine T13 := fine_neg (fine_lit 30029194105147424492 21 (-9) 3 (by norm_num) (by norm_num))
  have hT21 : Fine T21 := fine_lit 24171793270710701896 20 (-5) 3 (by norm_num) (by norm_num)
  have hT22 : Fine T22 := fine_lit 20412935229379993199 20 (-5) 3 (by norm_num) (by norm_num)
  have hT23 : Fine T23 := fine_lit 38294211275726193779 20 (-5) 3 (by norm_num) (by norm_num)
  have hT31 : Fine T31 := fine_lit 96604818261509293619 20 (-5) 3 (by norm_num) (by norm_num)
  rw [newton_eq, H.opts]
  have hz : ∀ i : _root_.Fin 1, Zero ((fun _ => 0.0 : Vec 1 B64) i) := fun _ => zero_lit
  obtain ⟨a, ha⟩ : ∃ a, newtonInit s = a := ⟨_, rfl⟩
  have I : Z t0 d a ∧ ZD a ∧ ZZ a ∧ a.cache.newt = 0 ∧ a.stats.steps = s.stats.steps ∧ a.sol.retcode = s.sol.retcode := by
    rw [← ha]
    have hfc : (Fl.powf (Fl.max s.cache.faccon Fl.eps) 0.8 : B64).x = fin 1 := by
      have hm : (Fl.max s.cache.faccon Fl.eps : B64).x = fin 1 := by
        change (ofX (Fl.max s.cache.faccon.x (Fl.eps : B64).x)).x = _
        rw [H.faccon, eps_x, max_fin, max_eq_left (by norm_num)]
        exact round64_rep rep_one
      obtain ⟨r, e⟩ := fine_lit 8 1 (-1) 0 (by norm_num) (by norm_num)
      change (ofX (Fl.powf (Fl.max s.cache.faccon Fl.eps : B64).x (OfScientific.ofScientific 8 true 1 : B64).x)).x = _
      rw [hm, e, powf_fin one_pos, Real.one_rpow]
      exact round64_rep rep_one
    simp only [newtonInit, prepare_newton]
    rw [if_pos (by rw [H.first]; rfl)]
    exact ⟨⟨H.1, H.2, H.3, H.4, H.5, H.6, H.7, H.8, H.9, H.10, H.11, H.12, hfc⟩, ⟨D.1, D.2, D.3, D.4, D.5, D.6⟩,
      ⟨hz, hz, hz, hz, hz, hz⟩, trivial, rfl, rfl⟩
  rw [ha]
  clear ha
  obtain ⟨I, DI, ZI, hn, hs1, hs2⟩ := I
  obtain ⟨b, hb⟩ : ∃ b, newtonSolve (newtonRhs a) = b := ⟨_, rfl⟩
  have hf : ∀ (p : Unit) (w u : Vec 1 B64) (t : B64) (i : _root_.Fin 1), Zero (a.dudt p w u t i) := by
    intro p w u t i; rw [I.dudt]; exact zero_lit
  have J : Z t0 d b ∧ ZD b ∧ ZZ b ∧ b.cache.newt = 1 ∧ b.stats.steps = s.stats.steps ∧ b.sol.retcode = s.sol.retcode := by
    rw [← hb]
    obtain ⟨c, hc⟩ : ∃ c, newtonRhs a = c := ⟨_, rfl⟩
    have K : Z t0 d c ∧ ZD c ∧ ZZ c ∧ c.cache.newt = 0 ∧ c.stats.steps = s.stats.steps ∧
        c.sol.retcode = s.sol.retcode := by
      rw [← hc]
      refine ⟨⟨I.1, I.2, I.3, I.4, I.5, I.6, I.7, I.8, I.9, I.10, I.11, I.12, I.13⟩, ⟨DI.1, DI.2, DI.3, DI.4, DI.5, DI.6⟩,
        ⟨fun i => ?_, fun i => ?_, fun i => ?_, ZI.f1, ZI.f2, ZI.f3⟩, hn, hs1, hs2⟩
      · exact ((Zero.mul hTI11 (hf _ _ _ _ _)).add (Zero.mul hTI12 (hf _ _ _ _ _))).add (Zero.mul hTI13 (hf _ _ _ _ _))
      · exact ((Zero.mul hTI21 (hf _ _ _ _ _)).add (Zero.mul hTI22 (hf _ _ _ _ _))).add (Zero.mul hTI23 (hf _ _ _ _ _))
      · exact ((Zero.mul hTI31 (hf _ _ _ _ _)).add (Zero.mul hTI32 (hf _ _ _ _ _))).add (Zero.mul hTI33 (hf _ _ _ _ _))
    rw [hc]
    clear hc hb
    obtain ⟨K, DK, ZK, kn, k1, k2⟩ := K
    have w1 : Zero (c.cache.z1 0 - c.cache.f1 0 * c.cache.fac1) := zero_sub (ZK.z1 0) (zero_mul' (ZK.f1 0) DK.fac1)
    have w2 : Zero (c.cache.z2 0 + -(c.cache.f2 0) * c.cache.alphn - -(c.cache.f3 0) * c.cache.betan) :=
      zero_sub ((ZK.z2 0).add (zero_mul' (zero_neg (ZK.f2 0)) DK.alphn)) (zero_mul' (zero_neg (ZK.f3 0)) DK.betan)
    have w3 : Zero (c.cache.z3 0 + -(c.cache.f3 0) * c.cache.alphn + -(c.cache.f2 0) * c.cache.betan) :=
      ((ZK.z3 0).add (zero_mul' (zero_neg (ZK.f3 0)) DK.alphn)).add (zero_mul' (zero_neg (ZK.f2 0)) DK.betan)
    have den := (DK.e2r.mul DK.e2r).add (DK.e2i.mul DK.e2i)
    have v1 := zero_div' w1 DK.e1
    have v2 := zero_div' ((zero_mul' w2 DK.e2r.fine).add (zero_mul' w3 DK.e2i.fine)) den
    have v3 := zero_div' (zero_sub (zero_mul' w3 DK.e2r.fine) (zero_mul' w2 DK.e2i.fine)) den
    refine ⟨⟨K.1, K.2, K.3, K.4, K.5, K.6, K.7, K.8, K.9, K.10, K.11, K.12, K.13⟩, ⟨DK.1, DK.2, DK.3, DK.4, DK.5, DK.6⟩,
        ⟨fun i => ?_, fun i => ?_, fun i => ?_, ZK.f1, ZK.f2, ZK.f3⟩, ?_, k1, k2⟩
    · obtain rfl : i = 0 := Subsingleton.elim _ _
      exact v1
    · obtain rfl : i = 0 := Subsingleton.elim _ _
      exact v2
    · obtain rfl : i = 0 := Subsingleton.elim _ _
      exact v3
    · change c.cache.newt + 1 = 1
      rw [kn]
  obtain ⟨J, DJ, ZJ, jn, j1, j2⟩ := J
  have hnorm : Zero (newtonNorm b) := by
    have q := ((zero_sq (zero_div' (ZJ.z1 0) (J.scal 0))).add (zero_sq (zero_div' (ZJ.z2 0) (J.scal 0)))).add
      (zero_sq (zero_div' (ZJ.z3 0) (J.scal 0)))
    have h3 : In 0 5 (Fl.ofNat (3 * 1) : B64) := by
      refine ⟨3, ?_, by norm_num, by norm_num⟩
      rw [laws.ofNat]; simpa using round64_rep (rep_nat (k := 3) (by norm_num))
    exact zero_sqrt (zero_div' (zero_lit.add q) h3)
  have hfn : Fl.le (fin 0) (adjustOpts (default_opts : Opts B64)).fnewt.x = true := by
    obtain ⟨r, e, r0⟩ := adjust_fnewt.pos
    rw [e]; simpa using r0.le
  have hle : Fl.le ((newtonUpdate b).cache.faccon * newtonNorm b) (newtonUpdate b).opts.fnewt = true := by
    have e : (newtonUpdate b).opts.fnewt = (adjustOpts (default_opts : Opts B64)).fnewt := by
      change b.opts.fnewt = _; rw [J.opts]
    rw [e, laws.le, show ((newtonUpdate b).cache.faccon * newtonNorm b).x = fin 0 from Zero.mul ⟨1, J.faccon⟩ hnorm]
    exact hfn
  refine ⟨newtonUpdate b, ?_, ⟨J.1, J.2, J.3, J.4, J.5, J.6, J.7, J.8, J.9, J.10, J.11, J.12, J.13⟩,
    ⟨DJ.1, DJ.2, DJ.3, DJ.4, DJ.5, DJ.6⟩, ?_, j1, j2⟩
  · simp only [newtonLoop]
    rw [if_neg (by rw [hn, I.opts]; change ¬ (0 ≥ 7); norm_num), hb]
    have hc : newtonCheck b (newtonNorm b) 0.0 = (b, false) := by
      simp only [newtonCheck]
      rw [if_neg (by rw [jn]; norm_num)]
    rw [hc]
    simp only [Bool.false_eq_true, if_false]
    rw [if_pos hle]
  · have f1 := fun i => (ZJ.f1 i).add (ZJ.z1 i)
    have f2 := fun i => (ZJ.f2 i).add (ZJ.z2 i)
    have f3 := fun i => (ZJ.f3 i).add (ZJ.z3 i)
    exact ⟨fun i => ((Zero.mul hT11 (f1 i)).add (Zero.mul hT12 (f2 i))).add (Zero.mul hT13 (f3 i)),
      fun i => ((Zero.mul hT21 (f1 i)).add (Zero.mul hT22 (f2 i))).add (Zero.mul hT23 (f3 i)),
      fun i => (Zero.mul hT31 (f1 i)).add (f2 i), f1, f2, f3⟩

theorem acceptState_flags (s : St B64 1 Unit) :
    (acceptState s).cache.reject = s.cache.reject ∧ (acceptState s).cache.last = s.cache.last := by
  simp only [acceptState]
  split <;> exact ⟨rfl, rfl⟩

/-- The error estimate is below one, and the step is accepted. -/
theorem Z.control (H : Z t0 d s) (D : ZD s) (ZH : ZZ s) (hd : In (-30) 0 d) :
    (control s).cache.reject = false ∧ (control s).t = t0 + d ∧ (control s).sol.retcode = .Success ∧
    (control s).sol.ts = [t0, t0 + d] := by
  have s6 : In 1 2 (Fl.sqrt 6.0 : B64) := In.sqrt (in_lit 60 true 1 2 4 (by norm_num) (by norm_num))
  have p7 := (in_lit 70 true 1 2 3 (by norm_num) (by norm_num)).mul s6
  have p13 := in_lit 130 true 1 3 5 (by norm_num) (by norm_num)
  have p3 := (in_lit 30 true 1 1 2 (by norm_num) (by norm_num)).mul hd
  have p1 := in_lit 10 true 1 0 0 (by norm_num) (by norm_num)
  have k1 : Fine (-(13.0 + 7.0 * Fl.sqrt 6.0) / (3.0 * s.dt) : B64) := by
    rw [H.dt]; exact ((p13.add p7).bd.neg.div p3).fine
  have k2 : Fine ((-13.0 + 7.0 * Fl.sqrt 6.0) / (3.0 * s.dt) : B64) := by
    rw [H.dt]; exact ((p13.bd.neg.add p7.bd).div p3).fine
  have k3 : Fine (-1.0 / (3.0 * s.dt) : B64) := by
    rw [H.dt]; exact (p1.bd.neg.div p3).fine
  have herr : Fl.lt (errFirst s).cache.err 1.0 = true := by
    have c0 : Zero ((errFirst s).cache.cont0 0) :=
      zero_div' ((((Zero.mul k1 (ZH.z1 0)).add (Zero.mul k2 (ZH.z2 0))).add (Zero.mul k3 (ZH.z3 0))).add (H.u0 0)) D.e1
    have h3 : In 0 5 (Fl.ofNat 1 : B64) := by
      refine ⟨1, ?_, by norm_num, by norm_num⟩
      rw [laws.ofNat]; simpa using round64_rep (rep_nat (k := 1) (by norm_num))
    have q : Zero (Fl.sqrt ((0.0 + Fl.powi ((errFirst s).cache.cont0 0 / (errFirst s).cache.scal 0) 2) / Fl.ofNat 1 : B64)) :=
      zero_sqrt (zero_div' (zero_lit.add (zero_sq (zero_div' c0 (H.scal 0)))) h3)
    obtain ⟨r, e, r1, r2⟩ := in_lit 10 true 11 (-40) (-1) (by norm_num) (by norm_num)
    change Fl.lt (Fl.max (Fl.sqrt ((0.0 + Fl.powi ((errFirst s).cache.cont0 0 / (errFirst s).cache.scal 0) 2) / Fl.ofNat 1 : B64))
      (OfScientific.ofScientific 10 true 11)).x (1.0 : B64).x = true
    have em : ∀ a b : B64, (Fl.max a b : B64).x = (ofX (Fl.max a.x b.x)).x := fun _ _ => rfl
    have r0 : 0 < r := lt_of_lt_of_le (by positivity) r1
    rw [em, q, e, laws.one, max_fin, max_eq_right r0.le]
    have : (ofX (fin r)).x = fin r := laws.rnd_val e
    rw [this, lt_fin]
    have : (2 : ℝ) ^ (-1 : ℤ) < 1 := by norm_num
    simp; linarith
  have hee : error_estimate s = errFirst s := by
    simp only [error_estimate]
    rw [if_pos herr]
  obtain ⟨q, e⟩ := control_accept (s := s) (by rw [hee]; exact herr)
  rw [e, hee]
  have A := acceptStep_fields { errFirst s with cache := { (errFirst s).cache with decompose := true } } q
  simp only at A
  obtain ⟨-, -, -, -, -, a1, -, -, -, -, -, -, a2, -, a3, -⟩ := A
  refine ⟨?_, ?_, ?_, ?_⟩
  · simp only [acceptStep]
    obtain ⟨f1, f2⟩ := acceptState_flags (countAccept { errFirst s with cache := { (errFirst s).cache with decompose := true } })
    rw [if_pos (by rw [f2]; exact H.last)]
    change (acceptState _).cache.reject = false
    rw [f1]
    exact H.reject
  · rw [a1]; change s.t + s.dt = _; rw [H.time, H.dt]
  · rw [a3]; change (if s.cache.last = true then _ else _) = _; rw [H.last]; rfl
  · rw [a2]; change s.sol.ts ++ [s.t + s.dt] = _; rw [H.time, H.dt, H.ts]; rfl

/-- A run of one step that ends with `Success`, in double precision. -/
theorem zero64r_run {t0 tf : B64} {x y a : ℝ} (hx : t0.x = fin x) (hy : tf.x = fin y) (hxy : x < y)
    (hx1 : |x| ≤ 1) (hd : In (-30) 0 (tf - t0)) (ha : Rep64 a) (h1 : a ≤ x + 33 * 2 ^ (-25 : ℤ)) (h2 : y ≤ a) :
    ∃ s0 s : St B64 1 Unit, (zero64r t0 tf).build alg = .ok s0 ∧ IntegrateReturns alg none s0 s ∧
      s.sol.retcode = .Success ∧ s.t = t0 + (tf - t0) ∧ s.sol.ts = [t0, t0 + (tf - t0)] := by
  obtain ⟨s0, hb⟩ : ∃ s0 : St B64 1 Unit, (zero64r t0 tf).build alg = .ok s0 := ⟨_, rfl⟩
  have hs0 := Res.ok.inj hb
  have htd : s0.tdir.x = fin 1 := by
    rw [← hs0]
    change (Fl.copysign 1.0 (tf - t0) : B64).x = _
    rw [laws.copysign, laws.one]
    · simp
    · rw [sub_x, hx, hy, sub_fin, round_fin]; exact laws.rnd_pos hx hy hxy
  have hclamp : clampLast s0 = { s0 with dt := s0.tfinal - s0.t, cache := { s0.cache with last := true } } := by
    unfold clampLast
    rw [if_pos]
    have e1 : ∃ r, (s0.dt * 1.0001).x = fin r ∧ 33 * 2 ^ (-25 : ℤ) ≤ r := by
      obtain ⟨p, ep, p1, p2⟩ := round_mid (x := 1.0001) rep_one (rep_pow 1) (by norm_num) (by norm_num)
      obtain ⟨q, eq, q1, q2⟩ := round_mid (x := 1e-6) (rep_int_pow 33 (-25)) rep_one (by norm_num) (by norm_num)
      have hp : (1.0001 : B64).x = fin p := ep
      have hq : s0.dt.x = fin q := by rw [← hs0]; exact eq
      push_cast at q1
      have : (0 : ℝ) < 33 * 2 ^ (-25 : ℤ) := by positivity
      have p2 : p ≤ 2 := by simpa using p2
      have hr := round_ge (rep_int_pow 33 (-25)) (x := q * p) (by push_cast; nlinarith)
      push_cast at hr
      have hr2 := round_le (rep_pow 1) (x := q * p) (by norm_num; nlinarith)
      rw [mul_x, hp, hq, mul_fin, round_fin]
      obtain ⟨z, e, h, -⟩ := mid_cases hr hr2
      exact ⟨z, e, h⟩
    obtain ⟨r, er, hr⟩ := e1
    have ht : s0.t.x = fin x := by rw [← hs0]; exact hx
    have htf : s0.tfinal.x = fin y := by rw [← hs0]; exact hy
    have htm : (s0.tfinal * s0.tdir).x = fin y := by
      rw [mul_x, htf, htd, mul_fin, mul_one, round_fin]; exact laws.rnd_val hy
    have e2 : Fl.le (fin a) ((s0.t + s0.dt * 1.0001).x) = true := by
      rw [add_x, er, ht, add_fin, round_fin]
      exact round_ge ha (by linarith)
    have e3 : Fl.le (fin 0) ((s0.t + s0.dt * 1.0001 - s0.tfinal * s0.tdir).x) = true := by
      rw [sub_x, htm]
      obtain ⟨z, e, hz⟩ | e := ge_cases e2
      · rw [e, sub_fin, round_fin]; exact round_ge rep_zero (by linarith)
      · rw [e]; rfl
    change Fl.le (0.0 : B64) _ = true
    rw [laws.le_zero_iff]
    exact e3
  have hZ : Z t0 (tf - t0) (clampLast s0) := by
    rw [hclamp, ← hs0]
    refine ⟨rfl, fun _ => zero_lit, fun _ => zero_lit, rfl, rfl, rfl, rfl, rfl, rfl, fun i => ?_, fun _ _ => zero_lit, rfl, laws.one⟩
    refine adjust_abstol.add_zero (Zero.mul adjust_reltol.fine ?_)
    change (Fl.abs (0.0 : B64)).x = _
    rw [laws.abs, laws.zero, abs_fin, abs_zero]
  have hst : (clampLast s0).stats.steps = 0 := by rw [hclamp, ← hs0]; rfl
  have hdc : (clampLast s0).cache.decompose = true := by rw [hclamp, ← hs0]
  obtain ⟨b, hb'⟩ : ∃ b, clampLast s0 = b := ⟨_, rfl⟩
  rw [hb'] at hZ hst hdc
  obtain ⟨b1, e1, Z1, D1, st1, rc1⟩ := hZ.dec hd
  obtain ⟨b2, hb2⟩ : ∃ b2, { b1 with stats := { b1.stats with steps := b1.stats.steps + 1 } } = b2 := ⟨_, rfl⟩
  have B2 : Z t0 (tf - t0) b2 ∧ ZD b2 ∧ b2.stats.steps = 1 := by
    rw [← hb2]
    refine ⟨⟨Z1.1, Z1.2, Z1.3, Z1.4, Z1.5, Z1.6, Z1.7, Z1.8, Z1.9, Z1.10, Z1.11, Z1.12, Z1.13⟩,
      ⟨D1.1, D1.2, D1.3, D1.4, D1.5, D1.6⟩, ?_⟩
    change b1.stats.steps + 1 = 1
    rw [st1, hst]
  obtain ⟨Z2, D2, st2⟩ := B2
  obtain ⟨b3, e3, Z3, D3, ZZ3, -⟩ := Z2.newton D2
  obtain ⟨c1, c2, c3, c4⟩ := Z3.control D3 ZZ3 hd
  have hsmall : Fl.le (0.1 * Fl.abs b1.dt) (Fl.abs b1.t * Fl.eps) = false := by
    obtain ⟨p, ep, p1, -⟩ := (in_lit 1 true 1 (-4) 0 (by norm_num) (by norm_num)).mul hd.abs
    have et : (Fl.abs t0 * Fl.eps : B64).x = round64 (|x| * 2 ^ (-52 : ℤ)) := by
      rw [mul_x, laws.abs, hx, eps_x, abs_fin, mul_fin, round_fin]
    obtain ⟨q, eq, -, q2⟩ := round_mid (x := |x| * 2 ^ (-52 : ℤ)) rep_zero (rep_pow (-52)) (by positivity)
      (by nlinarith [show (0 : ℝ) < 2 ^ (-52 : ℤ) by positivity])
    rw [Z1.dt, Z1.time, laws.le, et, eq]
    change Fl.le (OfScientific.ofScientific 1 true 1 * Fl.abs (tf - t0) : B64).x _ = false
    rw [ep, le_fin, decide_eq_false_iff_not, not_le]
    refine q2.trans_lt (lt_of_lt_of_le ?_ p1)
    norm_num
  have hstep : step 1 s0 = .ok (Radau.control b3) := by
    unfold step
    rw [hb', stepLoop]
    simp only [decPhase]
    rw [if_pos hdc, decLoop, e1]
    simp only [Res.bind, if_true, Bool.not_true, Bool.false_eq_true, if_false]
    rw [hb2, if_neg (by rw [st1, hst, Z1.opts]; change ¬ (0 + 1 ≥ 100000); norm_num), if_neg (by rw [hsmall]; simp), e3]
    simp only [Bool.not_true, Bool.false_eq_true, if_false]
    rw [if_pos (by rw [c1]; rfl)]
  refine ⟨s0, _, hb, ?_, c3, c2, c4⟩
  exact (integrate_iff Radau.fuelMono).2 ⟨0, s0, .zero _, stepReturns_none_iff.2 ⟨⟨1, hstep⟩, by rw [c3]; rfl⟩⟩

end Radau
end
end Cyphus
