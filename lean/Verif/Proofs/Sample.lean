import Verif.Proofs.DP5Run
import Verif.Proofs.RunInv
/-!
# Sample runs

Concrete executions of the model in exact arithmetic. They are used to show that the hypotheses of the
property theorems can be met.
-/

namespace Cyphus
namespace DP5
open X
set_option linter.unusedSectionVars false
set_option autoImplicit false
noncomputable section
variable {n : ℕ} {P : Type}

/-- For a constant right-hand side the error estimate vanishes and the step is exact. -/
theorem const_step (v : Fin n → ℝ) (t : ℝ) (u : Fin n → ℝ) (h : ℝ) :
    uerrR (fun _ _ => v) t u h = 0 ∧ unewR (fun _ _ => v) t u h = fun i => u i + h * v i := by
  constructor
  · funext i
    simp only [uerrR, K1, K3, K4, K5, K6, K7, E1_val, E3_val, E4_val, E5_val, E6_val, E7_val]
    simp only [Pi.zero_apply]; ring
  · funext i
    simp only [unewR, K1, K3, K4, K5, K6, A71_val, A73_val, A74_val, A75_val, A76_val]
    ring

theorem const_err (a r : ℝ) (v : Fin n → ℝ) (t : ℝ) (u : Fin n → ℝ) (h : ℝ) :
    errR a r (fun _ _ => v) t u h = 0 := by
  unfold errR Spec.errNorm
  rw [(const_step v t u h).1]
  simp

/-- If the first attempt is accepted, `step` returns. -/
theorem step_first {E : Env n} {s : St X n P} {t : ℝ} {u : Fin n → ℝ} {h : ℝ} (G : Good E s t u h)
    (he : E.err t u (E.first t h) ≤ 1) : ∃ s', DP5.step 1 s = .ok s' := by
  have G1 := G.clampLast
  refine ⟨_, step_ok.2 ⟨0, DP5.clampLast s, Nat.one_pos, .zero _, ?_, G1.ctl.stiff, rfl⟩⟩
  rw [G1.le_iff]
  simpa [Env.first] using he

/-- A right-hand side which is constant. -/
def constRhs (v : Fin n → ℝ) : Rhs X n P := fun _ _ _ _ => fv v

/-- The default options of `DormandPrince5` satisfy the hypotheses of the exact-arithmetic theorems. -/
def defaultEnv (f : ℝ → (Fin n → ℝ) → Fin n → ℝ) (t0 tf : ℝ) : Env n where
  f := f
  d := if 0 ≤ tf - t0 then 1 else -1
  tf := tf
  a := 1e-7
  r := 1e-3
  sf := 0.9
  fl := 0.2
  fr := 10
  be := 0.04
  mx := none

theorem default_problem (hn : n ≠ 0) {dudt : Rhs X n P} {p : P} {f : ℝ → (Fin n → ℝ) → Fin n → ℝ}
    (hf : Lifts dudt p f) (t0 tf : ℝ) (u0 : Fin n → ℝ) :
    Problem (defaultEnv f t0 tf) (Builder.default alg dudt (fv u0) (fin t0, fin tf) p) t0 u0 where
  rhs := hf
  u := rfl
  t := rfl
  dt := rfl
  tfinal := rfl
  dir := rfl
  tol := ⟨rfl, rfl, by norm_num [defaultEnv], by norm_num [defaultEnv]⟩
  ctl := by
    refine ⟨rfl, rfl, ?_, rfl, ?_, ?_, ?_, ?_, rfl, ?_, by change (1000:ℕ) ≠ 0; norm_num⟩
    · change (10.0 : X) = _; rw [X.sci]; norm_num [defaultEnv]
    · norm_num [defaultEnv]
    · norm_num [defaultEnv]
    · norm_num [defaultEnv]
    · norm_num [defaultEnv]
    · intro m hm; simp [defaultEnv] at hm
  dim := hn

/-- The sample problem: `u' = 1` in one dimension, `u(0) = 0`, on `[0, tf]`. -/
def sampleBuilder (tf : ℝ) : Builder X 1 Unit :=
  Builder.default alg (constRhs fun _ => 1) (fv fun _ => 0) (fin 0, fin tf) ()

theorem sample_problem (tf : ℝ) :
    Problem (defaultEnv (fun _ _ _ => 1) 0 tf) (sampleBuilder tf) 0 (fun _ => 0) :=
  default_problem one_ne_zero (fun _ _ _ => rfl) _ _ _

/-- The data of the sample problem. -/
def sampleEnv : Env 1 := defaultEnv (fun _ _ _ => 1) 0 1.1e-6

theorem sampleEnv_err (t : ℝ) (u : Fin 1 → ℝ) (h : ℝ) : sampleEnv.err t u h ≤ 1 := by
  change errR 1e-7 1e-3 (fun _ _ => fun _ => 1) t u h ≤ 1
  rw [const_err]; norm_num

theorem sampleEnv_rej {t : ℝ} {u : Fin 1 → ℝ} {k : ℕ} {h h' : ℝ} (hr : RejH sampleEnv t u k h h') :
    k = 0 ∧ h' = h := by
  cases hr with
  | zero => exact ⟨rfl, rfl⟩
  | succ h1 _ => exact absurd (sampleEnv_err _ _ _) (not_le.2 h1)

theorem sampleEnv_d : sampleEnv.d = 1 := by norm_num [sampleEnv, defaultEnv]

/-- A run of two steps: the first one has the fixed size `1e-6`, the second one ends at `tfinal`. -/
theorem sample_run : ∃ s0 s1 s2 : St X 1 Unit, (sampleBuilder 1.1e-6).build alg = .ok s0 ∧
    StepReturns alg none s0 (some 1) s1 ∧ StepReturns alg none s1 none s2 ∧
    s2.sol.retcode = .Success ∧ s1.sol.retcode = .Continue ∧
    s1.t = fin 1e-6 ∧ s2.t = fin 1.1e-6 := by
  obtain ⟨s0, hb⟩ : ∃ s0 : St X 1 Unit, (sampleBuilder 1.1e-6).build alg = .ok s0 := ⟨_, rfl⟩
  have H := (sample_problem 1.1e-6).build hb
  obtain ⟨G0, hr0, hl0, -, -, hc0, hst0, -⟩ := H
  have ho0 := (DP5.build_fields hb).2.2.2.2.2.2.2.2.2.2.2
  have hm0 : s0.opts.max_steps = 100000 := by rw [ho0]; rfl
  replace G0 : Good sampleEnv s0 0 (fun _ => 0) 1e-6 := G0
  obtain ⟨s1, h1⟩ := step_first G0 (sampleEnv_err _ _ _)
  obtain ⟨k, h, q, r1, -, q1, q2, G1, l1, -, sp1⟩ := G0.step h1
  obtain ⟨rfl, rfl⟩ := sampleEnv_rej r1
  obtain ⟨s2, h2⟩ := step_first G1 (sampleEnv_err _ _ _)
  obtain ⟨k, h', q', r2, -, -, -, G2, l2, -, sp2⟩ := G1.step h2
  obtain ⟨rfl, rfl⟩ := sampleEnv_rej r2
  have first0 : sampleEnv.first 0 1e-6 = 1e-6 := by
    unfold Env.first; rw [sampleEnv_d]; norm_num [sampleEnv, defaultEnv]
  rw [first0] at G1 G2 l2
  simp only [if_true, hr0] at G1 G2 l2
  have hq : 0 < q := by norm_num [sampleEnv, defaultEnv] at q1; linarith
  have hq5 : q ≤ 5 := by norm_num [sampleEnv, defaultEnv] at q2; exact q2
  have hh : (2e-7 : ℝ) ≤ 1e-6 / q := by rw [le_div_iff₀ hq]; linarith
  have hnext : nextH sampleEnv.mx sampleEnv.d false 1e-6 q = 1e-6 / q := by simp [nextH, sampleEnv, defaultEnv]
  have hcl : (0 + 1e-6 + 1.01 * (1e-6 / q) - sampleEnv.tf) * sampleEnv.d > 0 := by
    rw [sampleEnv_d]
    norm_num [sampleEnv, defaultEnv]
    norm_num at hh
    linarith
  rw [hnext] at G1 G2 l2
  rw [if_pos hcl] at l2
  have hf1 : sampleEnv.first (0 + 1e-6) (1e-6 / q) = 1e-7 := by
    unfold Env.first; rw [if_pos hcl]; norm_num [sampleEnv, defaultEnv]
  rw [hf1] at G2
  have hl1 : s1.cache.last = false := by
    rw [l1, if_pos rfl, if_neg, hl0]
    rw [sampleEnv_d]; norm_num [sampleEnv, defaultEnv]
  have c1 : s1.sol.retcode = .Continue := by
    obtain ⟨c, h3 | h3, h4⟩ := sp1.code
    · rw [h4, hl1, h3, hc0, sp1.steps, hst0, hm0]; rfl
    · exact absurd rfl h3.1
  have c2 : s2.sol.retcode = .Success := by
    obtain ⟨c, -, h4⟩ := sp2.code
    rw [h4, l2]; rfl
  refine ⟨s0, s1, s2, hb, ?_, ?_, c2, c1, ?_, ?_⟩
  · exact stepReturns_none_iff.2 ⟨⟨1, h1⟩, by rw [c1, sp1.steps, hst0]; rfl⟩
  · exact stepReturns_none_iff.2 ⟨⟨1, h2⟩, by rw [c2]; rfl⟩
  · rw [G1.num.t]; norm_num
  · rw [G2.num.t]; norm_num

/-- The same problem with `max_steps = 0`. -/
theorem sample_maxIters : ∃ s0 s1 : St X 1 Unit,
    ((sampleBuilder 1.1e-6).sets [.max_steps 0]).build alg = .ok s0 ∧
    StepReturns alg none s0 none s1 ∧ s1.sol.retcode = .MaxIters := by
  obtain ⟨s0, hb⟩ : ∃ s0 : St X 1 Unit,
    ((sampleBuilder 1.1e-6).sets [.max_steps 0]).build alg = .ok s0 := ⟨_, rfl⟩
  have Q := sample_problem 1.1e-6
  have Q' : Problem (defaultEnv (fun _ _ _ => 1) 0 1.1e-6) ((sampleBuilder 1.1e-6).sets [.max_steps 0]) 0
    (fun _ => 0) := ⟨Q.rhs, Q.u, Q.t, Q.dt, Q.tfinal, Q.dir, ⟨Q.tol.abstol, Q.tol.reltol, Q.tol.abs_pos,
      Q.tol.rel_nonneg⟩, ⟨Q.ctl.safe, Q.ctl.facl, Q.ctl.facr, Q.ctl.beta, Q.ctl.safe_pos, Q.ctl.facl_pos,
      Q.ctl.facr_pos, Q.ctl.beta_nonneg, Q.ctl.dtmax, Q.ctl.dtmax_pos, Q.ctl.stiff⟩, Q.dim⟩
  obtain ⟨G0, hr0, hl0, -, -, hc0, hst0, -⟩ := Q'.build hb
  have ho0 := (DP5.build_fields hb).2.2.2.2.2.2.2.2.2.2.2
  have hm0 : s0.opts.max_steps = 0 := by rw [ho0]; rfl
  replace G0 : Good sampleEnv s0 0 (fun _ => 0) 1e-6 := G0
  obtain ⟨s1, h1⟩ := step_first G0 (sampleEnv_err _ _ _)
  obtain ⟨k, h, q, r1, -, q1, q2, G1, l1, -, sp1⟩ := G0.step h1
  obtain ⟨rfl, rfl⟩ := sampleEnv_rej r1
  have hl1 : s1.cache.last = false := by
    rw [l1, if_pos rfl, if_neg, hl0]
    rw [sampleEnv_d]; norm_num [sampleEnv, defaultEnv]
  have c1 : s1.sol.retcode = .MaxIters := by
    obtain ⟨c, -, h4⟩ := sp1.code
    rw [h4, hl1, sp1.steps, hst0, hm0]; rfl
  exact ⟨s0, s1, hb, stepReturns_none_iff.2 ⟨⟨1, h1⟩, by rw [c1]; rfl⟩, c1⟩

end
end DP5
end Cyphus
