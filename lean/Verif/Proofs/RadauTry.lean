import Verif.Proofs.RadauLive
import Verif.Spec.RadauSuccess
/-!
# The attempts of a `Radau5` step: sizes
-/

namespace Cyphus
open X
set_option autoImplicit false
set_option linter.unusedSectionVars false

theorem Spec.NotEigen.det {K : Type} [Field K] {n : ℕ} {J : Fin n → Fin n → K} {lam : K} (H : Spec.NotEigen J lam)
    {A : ℕ → ℕ → K} (hA : ∀ i j : Fin n, A i j = (if i = j then lam else 0) - J i j) : Spec.det n A ≠ 0 := by
  unfold Spec.det
  intro h0
  obtain ⟨v, hv, h1⟩ := Matrix.exists_mulVec_eq_zero_iff.2 h0
  refine hv (H v fun i => ?_)
  have := congrFun h1 i
  simp only [Matrix.mulVec, dotProduct, Matrix.of_apply, hA, sub_mul, Finset.sum_sub_distrib, ite_mul, zero_mul,
    Finset.sum_ite_eq, Finset.mem_univ, if_true, Pi.zero_apply] at this
  exact (sub_eq_zero.1 this).symm

namespace Radau
noncomputable section
variable {n : ℕ} {P : Type} {E : NEnv n} {fwd : Prop} {s : St X n P} {t h : ℝ} {C : Clock}

/-! ### The decompositions -/

theorem perform_regular {J : _root_.Fin n → _root_.Fin n → ℝ} (hn : n ≠ 0) (hJ : s.cache.dfdu = fmat J) (hh : s.dt = fin h)
    (h0 : h ≠ 0) (hR : Regular J h) : ∃ s1, perform_decompositions s = .ok (s1, true) ∧ s1.dt = s.dt ∧
      s1.cache.dfdu = s.cache.dfdu ∧ s1.cache.decompose = s.cache.decompose ∧ s1.cache.last = s.cache.last ∧
      s1.cache.reject = s.cache.reject := by
  have ext : ∀ (M : Mat n ℝ) (i j : _root_.Fin n), extM M i j = M i j := by
    intro M i j
    simp only [extM]
    rw [dif_pos ⟨i.2, j.2⟩]
  obtain ⟨s1, h1⟩ := perform_of_det hn hJ hh h0 (hR.1.det fun i j => by rw [ext]) (hR.2.det fun i j => by
    unfold Spec.complexMatrix
    rw [ext, ext]
    split <;> apply Complex.ext <;> simp)
  refine ⟨s1, h1, ?_⟩
  obtain ⟨-, s2, s3, h2, h3, rfl⟩ | ⟨hb, -⟩ := perform_ok h1
  · obtain ⟨r1, -, rfl⟩ := decomp_real_ok h2
    obtain ⟨r2, -, rfl⟩ := decomp_complex_ok h3
    exact ⟨rfl, rfl, rfl, rfl, rfl⟩
  · simp at hb

theorem decPhase_regular {J : _root_.Fin n → _root_.Fin n → ℝ} (hn : n ≠ 0) (hJ : s.cache.dfdu = fmat J) (hh : s.dt = fin h)
    (h0 : h ≠ 0) (hR : Regular J h) {fuel : ℕ} {s1 : St X n P} {b : Bool} (hd : decPhase fuel s = .ok (s1, b)) :
    b = true ∧ s1.dt = s.dt ∧ s1.cache.dfdu = s.cache.dfdu ∧ s1.cache.decompose = s.cache.decompose ∧
      s1.cache.last = s.cache.last ∧ s1.cache.reject = s.cache.reject := by
  unfold decPhase at hd
  split at hd
  · cases fuel with
    | zero => simp [decLoop] at hd
    | succ k =>
      obtain ⟨s2, h2, h3⟩ := perform_regular hn hJ hh h0 hR
      rw [decLoop, h2] at hd
      simp only [Res.bind, if_true] at hd
      obtain ⟨rfl, rfl⟩ := Prod.mk.inj (Res.ok.inj hd)
      exact ⟨rfl, h3⟩
  · obtain ⟨rfl, rfl⟩ := Prod.mk.inj (Res.ok.inj hd)
    exact ⟨rfl, rfl, rfl, rfl, rfl, rfl⟩

/-! ### Small steps -/

/-- What is known after the decompositions of an attempt with the step `h`. -/
structure Ripe (E : NEnv n) (C : Clock) (fwd : Prop) (s : St X n P) (t h a r φ M B : ℝ) (u : _root_.Fin n → ℝ)
    (J : _root_.Fin n → _root_.Fin n → ℝ) : Prop where
  clk : Clk C fwd s t h
  num : Num E fwd s
  good : Good h J (facsOf s)
  jok : JOk E fwd J
  pos : 0 < h
  state : s.u = fv u
  deriv : s.cache.u0 = fv (E.f t u)
  a0 : 0 < a
  r0 : 0 ≤ r
  scal : s.cache.scal = fun i => fin a + fin r * Fl.abs (fin (u i))
  fnewt : s.opts.fnewt = fin φ
  max_newt : 1 ≤ s.opts.max_newt_iter
  ext : s.opts.use_ext_col = false
  fac : FacOk s
  rhs : ∀ t u i, |E.f t u i| ≤ M
  rows : ∀ i, ∑ j, |J i j| ≤ B

/-- A small step converges in one pass. -/
theorem Ripe.newton {a r φ M B : ℝ} {u : _root_.Fin n → ℝ} {J : _root_.Fin n → _root_.Fin n → ℝ} (hn : n ≠ 0)
    (H : Ripe E C fwd s t h a r φ M B u J) (h1 : 30 * B * h ≤ 1) (h2 : 124 * M * h ≤ a * φ) :
    ∃ s2, newton s = .ok (s2, true) ∧ s2.cache.newt = 1 ∧ s2.dt = fin h ∧ facsOf s2 = facsOf s ∧
      ∃ z : _root_.Fin 3 → _root_.Fin n → ℝ, s2.cache.z1 = fv (z 0) ∧ s2.cache.z2 = fv (z 1) ∧ s2.cache.z3 = fv (z 2) ∧
        ∀ k i, |z k i| ≤ 6.2 * M * h := by
  have i0 : _root_.Fin n := ⟨0, Nat.pos_of_ne_zero hn⟩
  have M0 : 0 ≤ M := (abs_nonneg _).trans (H.rhs 0 0 i0)
  have B0 : 0 ≤ B := (Finset.sum_nonneg fun _ _ => abs_nonneg _).trans (H.rows i0)
  obtain ⟨x, hx, x0, x1⟩ := H.fac.start
  have hmn := H.max_newt
  have H1 := H.num.init H.clk.step
  have o1 : (newtonInit s).opts = s.opts := (Frame.newtonInit s).opts
  have t1 : (newtonInit s).t = fin t := (Frame.newtonInit s).t.trans H.clk.time
  have c1 : (newtonInit s).cache.scal = s.cache.scal := (Frame.newtonInit s).scal
  have u1 : (newtonInit s).u = s.u := (Frame.newtonInit s).u
  have y1 : (newtonInit s).dt = fin h ∧ facsOf (newtonInit s) = facsOf s ∧ (newtonInit s).cache.newt = 0 ∧ Linked (newtonInit s) ∧
      (newtonInit s).cache.f1 = (fun _ => 0.0) ∧ (newtonInit s).cache.f2 = (fun _ => 0.0) ∧
      (newtonInit s).cache.f3 = (fun _ => 0.0) := by
    rw [← H.clk.step]
    simp only [newtonInit, prepare_newton]
    rw [if_pos (by simp [H.ext])]
    exact ⟨rfl, rfl, by trivial, .inl ⟨rfl, rfl, rfl, rfl, rfl, rfl⟩, rfl, rfl, rfl⟩
  rw [newton_eq]
  generalize newtonInit s = s1 at *
  obtain ⟨d1, G1, n1, L1, z1, z2, z3⟩ := y1
  have G : Good h J (facsOf s1) := by rw [G1]; exact H.good
  obtain ⟨u', g, y, Δ, z, hu, hz, e1, e2, e3, N, f1, f2, f3, -⟩ := H1.pass G t1 d1 L1
  obtain rfl : u' = u := fv_inj (hu.symm.trans (u1.trans H.state))
  have hg : g = 0 := by
    have : (fun _ => (0.0 : X) : Vec n X) = fv 0 := by
      funext i
      rw [show (0.0 : X) = fin 0.0 from rfl]; change _ = fin 0; norm_num
    rw [z1, this] at f1
    rw [z2, this] at f2
    rw [z3, this] at f3
    funext k
    fin_cases k
    exacts [(fv_inj f1).symm, (fv_inj f2).symm, (fv_inj f3).symm]
  obtain ⟨hΔ, hzb⟩ := first_pass H.rhs H.rows M0 B0 H.pos.le h1 N hg
  have hc0 : newtonCheck (solved s1) (newtonNorm (solved s1)) 0.0 = (solved s1, false) := by
    have : (solved s1).cache.newt = 1 := by
      change s1.cache.newt + 1 = 1
      rw [n1]
    simp only [newtonCheck, this]
    rw [if_neg (by omega)]
  obtain ⟨a1, a2, a3, a4, a5, a6, a7, -, -, -⟩ := solved_fields s1
  obtain ⟨b1, b2, b3, b4, b5, b6, b7, -⟩ := update_fields (solved s1)
  have hscal : (solved s1).cache.scal = fun i => fin a + fin r * Fl.abs (fin (u' i)) := a4.trans (c1.trans H.scal)
  have hnorm := newtonNorm_fin (s := solved s1) H.a0 H.r0 hn hscal e1 e2 e3
  have hsc : ∀ i, a ≤ a + r * |u' i| := fun i => by
    have := mul_nonneg H.r0 (abs_nonneg (u' i))
    linarith
  have hnb : Spec.newtonNorm a r u' Δ ≤ 3.1 * M * h / a := by
    have c0 : 0 ≤ 3.1 * M * h / a := div_nonneg (mul_nonneg (by positivity) H.pos.le) H.a0.le
    refine newtonNorm_le hn H.a0 H.r0 c0 fun k i => (hΔ k i).trans ?_
    calc 3.1 * M * h = 3.1 * M * h / a * a := by field_simp [H.a0.ne']
      _ ≤ _ := mul_le_mul_of_nonneg_left (hsc i) c0
  have hN0 : 0 ≤ Spec.newtonNorm a r u' Δ := Real.sqrt_nonneg _
  have htest : Fl.le ((solved s1).cache.faccon * newtonNorm (solved s1)) (solved s1).opts.fnewt = true := by
    rw [hnorm, show (solved s1).cache.faccon = fin x from hx, show (solved s1).opts.fnewt = fin φ by
      rw [a1, o1, H.fnewt], mul_fin, le_fin]
    refine decide_eq_true ?_
    calc x * Spec.newtonNorm a r u' Δ ≤ 40 * (3.1 * M * h / a) := mul_le_mul x1 hnb hN0 (by norm_num)
      _ = (124 * M * h) / a := by ring
      _ ≤ φ := by rw [div_le_iff₀ H.a0]; linarith
  rw [newtonLoop_pass _ (by rw [n1, o1]; omega) hc0, if_pos htest]
  obtain ⟨w1, w2, w3⟩ := hz (solved s1) ⟨rfl, rfl, rfl, rfl, rfl, rfl⟩
  exact ⟨_, rfl, by rw [b6, a6, n1], by rw [b3, a3, d1], by rw [b5, a5, G1], z, w1, w2, w3, hzb⟩

/-- An attempt with a small step converges in one pass and has a small error. -/
theorem Ripe.small {a r φ M B ε : ℝ} {u : _root_.Fin n → ℝ} {J : _root_.Fin n → _root_.Fin n → ℝ} (hn : n ≠ 0)
    (H : Ripe E C fwd s t h a r φ M B u J) (h1 : 30 * B * h ≤ 1) (h2 : 124 * M * h ≤ a * φ) (h3 : 22 * M * h ≤ a * ε)
    (ε0 : 1e-10 ≤ ε) (ε1 : ε < 1) : ∃ s2, Radau.newton s = .ok (s2, true) ∧ s2.cache.newt = 1 ∧
      Fl.lt (decided s2).cache.err 1.0 = true ∧
      ∃ e, (decided s2).cache.err = fin e ∧ 0 < e ∧ e ≤ ε := by
  have i0 : _root_.Fin n := ⟨0, Nat.pos_of_ne_zero hn⟩
  have M0 : 0 ≤ M := (abs_nonneg _).trans (H.rhs 0 0 i0)
  have B0 : 0 ≤ B := (Finset.sum_nonneg fun _ _ => abs_nonneg _).trans (H.rows i0)
  obtain ⟨s2, hN, hnt, hdt, hfac, z, w1, w2, w3, hzb⟩ := H.newton hn h1 h2
  have fr := Frame.newton hN
  have G : Good h J (facsOf s2) := by rw [hfac]; exact H.good
  obtain ⟨⟨e, e1, e2⟩, -⟩ := Num.errFirst_real G hdt H.pos.ne' w1 w2 w3 (fr.u0.trans H.deriv)
  have hel := est_small (H.rhs t u) H.rows M0 B0 H.pos h1 hzb e2
  have ε0' : (0:ℝ) < ε := lt_of_lt_of_le (by norm_num) ε0
  have hsc : ∀ i, a ≤ a + r * |u i| := fun i => by
    have := mul_nonneg H.r0 (abs_nonneg (u i))
    linarith
  have hsn : Spec.scaledNorm a r u e ≤ ε := by
    refine scaledNorm_le' hn H.a0 H.r0 ε0'.le fun i => (hel i).trans (h3.trans ?_)
    rw [mul_comm]
    exact mul_le_mul_of_nonneg_left (hsc i) ε0'.le
  have er1 : (errFirst s2).cache.err = fin (max (Spec.scaledNorm a r u e) 1.0e-10) := by
    change errNorm (errFirst s2) = _
    exact errNorm_fin H.a0 H.r0 hn (fr.scal.trans H.scal) e1
  have hmx : max (Spec.scaledNorm a r u e) 1.0e-10 ≤ ε := max_le hsn (le_trans (by norm_num) ε0)
  have hlt : Fl.lt (errFirst s2).cache.err 1.0 = true := by
    rw [er1, show (1.0 : X) = fin 1.0 from rfl, lt_fin]
    refine decide_eq_true (lt_of_le_of_lt hmx ?_)
    norm_num; exact ε1
  have hd : decided s2 = { errFirst s2 with cache := { (errFirst s2).cache with decompose := true } } := by
    simp only [decided, error_estimate, hlt, if_true]
  exact ⟨s2, hN, hnt, by rw [hd]; exact hlt, _, by rw [hd]; exact er1, lt_of_lt_of_le (by norm_num) (le_max_right _ _), hmx⟩

/-! ### Failed attempts -/

variable {ρ σ : ℝ}

theorem slow_dt {s : St X n P} {d : X} (hh : s.dt = fin h) (hn : s.cache.newt < s.opts.max_newt_iter)
    (hd : Fl.ge d 1.0 = true) : ∃ y : ℝ, (slowStep s d).dt = fin (h * y) ∧ 0.1 ≤ y ∧ y ≤ 0.8 := by
  obtain ⟨q, hq, hq1, hq2⟩ : ∃ q, Fl.max 1e-4 (Fl.min 20.0 d) = fin q ∧ 1 ≤ q ∧ q ≤ 20 := by
    obtain ⟨q, a, b⟩ := clamp_ge (fl := 20.0) (fr := 1e-4) (c := 1) (by norm_num) d (by
      rintro y rfl
      rw [show (1.0 : X) = fin 1.0 from rfl, ge_fin] at hd
      have : (1.0 : ℝ) ≤ y := by simpa using hd
      norm_num at this
      exact this) (by
      rintro rfl
      rw [show Fl.ge ninf (1.0 : X) = false from rfl] at hd
      simp at hd)
    obtain ⟨q', a', -, b'⟩ := clamp_val (fl := 20.0) (fr := 1e-4) d
    rw [a, fin_inj] at a'
    subst a'
    refine ⟨q, a, b, b'.trans ?_⟩
    norm_num
  obtain ⟨k, ek⟩ : ∃ k, k = 4 + s.opts.max_newt_iter - 1 - s.cache.newt := ⟨_, rfl⟩
  have hk : 2 ≤ k := by omega
  have hk2 : (2 : ℝ) ≤ k := by exact_mod_cast hk
  have hk' : (k : ℝ) ≠ 0 := by positivity
  refine ⟨0.8 * q ^ (-1.0 / (k : ℝ)), ?_, ?_, ?_⟩
  · have e1 : (0.8 : X) * Fl.powf (Fl.max 1e-4 (Fl.min 20.0 d))
        (-1.0 / Fl.ofNat (4 + s.opts.max_newt_iter - 1 - s.cache.newt)) = fin (0.8 * q ^ (-1.0 / (k : ℝ))) := by
      rw [hq, ← ek, ofNat_fin, show (-1.0 : X) = fin (-1.0) from rfl, div_fin hk', powf_fin (by linarith)]
      rfl
    simp only [slowStep]
    rw [e1]
    split <;> exact (by change s.dt * fin _ = _; rw [hh]; rfl)
  · have h1 : (20 : ℝ) ^ (-(1 / 2) : ℝ) ≤ q ^ (-1.0 / (k : ℝ)) := by
      have h2 : (-(1 / 2) : ℝ) ≤ -1.0 / (k : ℝ) := by
        rw [le_div_iff₀ (by positivity)]
        norm_num
        linarith
      calc (20 : ℝ) ^ (-(1 / 2) : ℝ) ≤ (20 : ℝ) ^ (-1.0 / (k : ℝ)) := Real.rpow_le_rpow_of_exponent_le (by norm_num) h2
        _ ≤ q ^ (-1.0 / (k : ℝ)) := Real.rpow_le_rpow_of_nonpos (by linarith) hq2 (by
          apply div_nonpos_of_nonpos_of_nonneg <;> norm_num)
    have h3 : (1 / 5 : ℝ) ≤ (20 : ℝ) ^ (-(1 / 2) : ℝ) := by
      rw [Real.rpow_neg (by norm_num), ← Real.sqrt_eq_rpow, one_div]
      exact inv_anti₀ (Real.sqrt_pos.2 (by norm_num)) (Real.sqrt_le_iff.2 ⟨by norm_num, by norm_num⟩)
    have h4 := h3.trans h1
    norm_num at h4 ⊢
    linarith
  · have : q ^ (-1.0 / (k : ℝ)) ≤ 1 := Real.rpow_le_one_of_one_le_of_nonpos hq1 (by
      apply div_nonpos_of_nonpos_of_nonneg <;> norm_num)
    norm_num at this ⊢
    linarith

theorem halve_dt {s : St X n P} (hh : s.dt = fin h) : ∃ y : ℝ, (halveStep s).dt = fin (h * y) ∧ 0.1 ≤ y ∧ y ≤ 0.8 := by
  refine ⟨0.5, ?_, by norm_num, by norm_num⟩
  have : (halveStep s).dt = s.dt * 0.5 := by simp only [halveStep]; split <;> rfl
  rw [this, hh, X.sci, mul_fin]

/-- The step after a failed Newton iteration. -/
theorem newtonLoop_retry {fuel : ℕ} {s s' : St X n P} {d : X} (hh : s.dt = fin h) (hl : newtonLoop fuel s d = .ok (s', false)) :
    ∃ y : ℝ, s'.dt = fin (h * y) ∧ 0.1 ≤ y ∧ y ≤ 0.8 := by
  induction fuel generalizing s d with
  | zero => simp [newtonLoop] at hl
  | succ k ih =>
    simp only [newtonLoop] at hl
    split at hl
    · obtain ⟨rfl, -⟩ := Prod.mk.inj (Res.ok.inj hl)
      exact halve_dt hh
    · rename_i hlt
      split at hl
      · rename_i hc
        obtain ⟨rfl, -⟩ := Prod.mk.inj (Res.ok.inj hl)
        simp only [newtonCheck] at hc ⊢
        split at hc
        · rename_i hn
          rw [if_pos hn]
          split at hc
          · rename_i ht
            rw [if_pos ht]
            split at hc
            · rename_i hd
              rw [if_pos hd]
              exact slow_dt hh hn.2 hd
            · simp at hc
          · rename_i ht
            rw [if_neg ht]
            exact halve_dt hh
        · simp at hc
      · rename_i hc
        split at hl
        · simp at hl
        · refine ih ?_ hl
          have := newtonCheck_dt (newtonSolve (newtonRhs s)) (newtonNorm (newtonSolve (newtonRhs s))) d (by simpa using hc)
          exact this.trans hh

theorem newton_retry {s s' : St X n P} (hh : s.dt = fin h) (hl : newton s = .ok (s', false)) :
    ∃ y : ℝ, s'.dt = fin (h * y) ∧ 0.1 ≤ y ∧ y ≤ 0.8 := by
  rw [newton_eq] at hl
  refine newtonLoop_retry ?_ hl
  simp only [newtonInit, prepare_newton]
  split <;> exact hh

/-- A rejected attempt: the quotient is at least `c`. -/
theorem Clk.quot_reject_ge (H : Clk C fwd s t h) (he : Fl.lt s.cache.err 1.0 = false) {c : ℝ} (c1 : c ≤ C.fl)
    (c2 : c * C.sf ≤ 1) (c0 : 0 ≤ c) : ∃ q, stepQuot s = fin q ∧ c ≤ q := by
  unfold stepQuot
  simp only [H.ctl.facr, H.ctl.facl]
  obtain ⟨cf, e1, hcf⟩ := H.cfac
  obtain ⟨y, e2, hy, hy'⟩ := fac_val H.ctl.safe H.ctl.safe_pos hcf
    (s.cache.newt + 2 * s.opts.max_newt_iter)
  rw [e1, e2]
  have e4 : (0.25 : X) = fin 0.25 := rfl
  have hnan : Fl.powf nan (fin 0.25) = nan := by
    change powX nan (fin 0.25) = nan
    unfold powX
    rw [if_neg (by simp; norm_num)]
  have hinf : Fl.powf pinf (fin 0.25) = pinf := by
    change powX pinf (fin 0.25) = pinf
    unfold powX
    rw [if_neg (by simp; norm_num)]
    simp
    norm_num
  have hdiv : (pinf : X) / fin y = pinf := by
    change (if y < 0 then ninf else pinf) = _
    rw [if_neg (not_lt.2 hy.le)]
  generalize s.cache.err = e at he
  rw [e4]
  cases e with
  | nan => exact clamp_ge c1 _ (by rw [hnan]; intro z hz; change nan = _ at hz; simp at hz) (by rw [hnan]; intro hz; change nan = _ at hz; simp at hz)
  | ninf => exact absurd he (by change ¬ ltX ninf (fin _) = false; simp [ltX])
  | pinf => exact clamp_ge c1 _ (by rw [hinf, hdiv]; simp) (by rw [hinf, hdiv]; simp)
  | fin e =>
    have he' : 1 ≤ e := by
      rw [show (1.0 : X) = fin 1.0 from rfl, lt_fin] at he
      have : ¬ e < 1.0 := by simpa using he
      norm_num at this
      exact this
    rw [powf_fin (by linarith), div_fin hy.ne']
    refine clamp_ge c1 _ ?_ (by simp)
    intro z hz
    rw [fin_inj] at hz
    subst hz
    rw [le_div_iff₀ hy]
    calc c * y ≤ c * C.sf := mul_le_mul_of_nonneg_left hy' c0
      _ ≤ 1 := c2
      _ ≤ _ := Real.one_le_rpow he' (by norm_num)

/-- The step after a rejected attempt. -/
theorem Clk.reject_dt (H : Clk C fwd s t h) (S : Shrink C ρ σ) (h0 : 0 < h) (he : Fl.lt s.cache.err 1.0 = false) :
    ∃ h', (rejectStep s (stepQuot s)).dt = fin h' ∧ ρ * h ≤ h' ∧ h' ≤ σ * h := by
  obtain ⟨q, hq, hfr, hq2⟩ := H.quot
  have hq0 : 0 < q := H.ctl.facr_pos.trans_le hfr
  have hdt := (rejectStep_fields s (stepQuot s)).2.2.2.2.2.2.2.2.2
  rw [H.step, hq] at hdt
  have S2 := S.σ2
  have σ0 : 0 < σ := lt_of_lt_of_le (by norm_num) S2
  have S1 := S.ρ1
  split at hdt
  · refine ⟨h * 0.1, by rw [hq, hdt]; rfl, ?_, ?_⟩
    · rw [mul_comm h]; exact mul_le_mul_of_nonneg_right S1 h0.le
    · rw [mul_comm h]; exact mul_le_mul_of_nonneg_right (le_trans (by norm_num) S2) h0.le
  · refine ⟨h / q, by rw [hq, hdt, div_fin hq0.ne'], ?_, ?_⟩
    · rw [le_div_iff₀ hq0]
      have := (mul_le_mul_of_nonneg_left hq2 S.ρ0.le).trans S.ρ2
      calc ρ * h * q = ρ * q * h := by ring
        _ ≤ 1 * h := mul_le_mul_of_nonneg_right this h0.le
        _ = h := one_mul h
    · obtain ⟨q', e', h1⟩ := H.quot_reject_ge he (c := 1 / σ) (by rw [div_le_iff₀ σ0, mul_comm]; exact S.σ4)
        (by rw [div_mul_eq_mul_div, one_mul, div_le_iff₀ σ0, one_mul]; exact S.σ3) (by positivity)
      rw [hq, fin_inj] at e'
      subst e'
      rw [div_le_iff₀ hq0]
      rw [div_le_iff₀ σ0] at h1
      calc h = 1 * h := (one_mul h).symm
        _ ≤ q * σ * h := mul_le_mul_of_nonneg_right h1 h0.le
        _ = σ * h * q := by ring

/-! ### The attempts of a call -/

section
variable {b : Builder X n P} {f : ℝ → (_root_.Fin n → ℝ) → _root_.Fin n → ℝ}
  {jac : ℝ → (_root_.Fin n → ℝ) → _root_.Fin n → _root_.Fin n → ℝ} {u0 u : _root_.Fin n → ℝ} {l : List (ℝ × (_root_.Fin n → ℝ))}
  {a r φ M B ε : ℝ} {s' : St X n P}

/-- The state at the head of the loop, before an attempt with the step `h`. -/
structure Trying (b : Builder X n P) (f : ℝ → (_root_.Fin n → ℝ) → _root_.Fin n → ℝ)
    (jac : ℝ → (_root_.Fin n → ℝ) → _root_.Fin n → _root_.Fin n → ℝ) (u0 : _root_.Fin n → ℝ) (C : Clock) (fwd : Prop)
    (l : List (ℝ × (_root_.Fin n → ℝ))) (a r φ t : ℝ) (u : _root_.Fin n → ℝ) (s : St X n P) (h : ℝ) : Prop where
  head : HeadN (env f jac ⊤ u0) C fwd t s
  step : s.dt = fin h
  pos : 0 < h
  lst : L s
  dec : s.cache.decompose = true
  fac : FacOk s
  state : s.u = fv u
  deriv : s.cache.u0 = fv (f t u)
  a0 : 0 < a
  r0 : 0 ≤ r
  scal : s.cache.scal = fun i => fin a + fin r * Fl.abs (fin (u i))
  fnewt : s.opts.fnewt = fin φ
  max_newt : 1 ≤ s.opts.max_newt_iter
  ext : s.opts.use_ext_col = false
  jinv : JacInv b.dudt b.dfdu b.params s
  recd : Recorded s.sol l

theorem Trying.jac_at (H : Trying b f jac u0 C fwd l a r φ t u s h) (R : RealProblem b f jac u0) :
    ∃ p : ℝ × (_root_.Fin n → ℝ), s.cache.dfdu = fmat (jac p.1 p.2) := by
  obtain ⟨J, hJ, -⟩ := H.head.num.dfdu
  obtain ⟨⟨e1, e2, e3, -⟩, -, x, hx, buf, hd⟩ := H.jinv
  obtain ⟨p, -, rfl⟩ := recorded_jac R H.jinv H.recd (J := J) ⟨x, hx, buf, by rw [← hJ, hd, e1, e2, e3]⟩
  exact ⟨p, hJ⟩

/-- The decompositions succeed and keep the step. -/
theorem Trying.decs (hn : n ≠ 0) (H : Trying b f jac u0 C fwd l a r φ t u s h) (R : RealProblem b f jac u0)
    (hm : Mild f jac M B h) {fuel : ℕ} {s1 : St X n P} {c : Bool} (hd : decPhase fuel s = .ok (s1, c)) :
    c = true ∧ s1.dt = fin h ∧ s1.cache.decompose = true ∧
      (tooSmall s1 = false → ∃ J, Ripe (env f jac ⊤ u0) C fwd (tick s1) t h a r φ M B u J) := by
  obtain ⟨p, hJ⟩ := H.jac_at R
  obtain ⟨rfl, e1, e2, e3, -, -⟩ := decPhase_regular hn hJ H.step H.pos.ne' (hm.regular p.1 p.2 h H.pos le_rfl) hd
  refine ⟨rfl, e1.trans H.step, e3.trans H.dec, fun hs => ?_⟩
  obtain ⟨⟨h', h0, hc⟩, hN, hf, J, hjo, hG, hfr⟩ := H.head.dec hd hs
  obtain ⟨k1, k2⟩ := hfr H.dec
  have fr := Frame.decPhase hd
  obtain rfl : hf = h := by
    rw [e1, H.step, fin_inj] at k1
    exact k1.symm
  obtain rfl : h' = hf := by
    have := hc.step
    rw [e1, H.step, fin_inj] at this
    exact this.symm
  obtain rfl : J = jac p.1 p.2 := by
    rw [e2, hJ] at k2
    funext i j
    exact fin_inj.1 (congrFun (congrFun k2 i) j).symm
  obtain ⟨h'', hc'⟩ := Clk.tick ⟨h', hc⟩
  obtain rfl : h'' = h' := by
    have := hc'.step.symm.trans hc.step
    exact fin_inj.1 this
  exact ⟨_, hc', { hN with }, hG, hjo, H.pos, fr.u.trans H.state, fr.u0.trans H.deriv, H.a0, H.r0, fr.scal.trans H.scal,
    by change s1.opts.fnewt = _; rw [fr.opts]; exact H.fnewt, by change 1 ≤ s1.opts.max_newt_iter; rw [fr.opts]; exact H.max_newt,
    by change s1.opts.use_ext_col = _; rw [fr.opts]; exact H.ext, (H.fac.dec hd).congr rfl, hm.rhs, hm.rows _ _⟩

theorem Trying.att (hn : n ≠ 0) (H : Trying b f jac u0 C fwd l a r φ t u s h) (R : RealProblem b f jac u0)
    (S : Shrink C ρ σ) (hm : Mild f jac M B h) (ha : Att s s') :
    ∃ h', Trying b f jac u0 C fwd l a r φ t u s' h' ∧ ρ * h ≤ h' ∧ h' ≤ σ * h := by
  have sp := ha.spec H.lst
  have key : s'.cache.decompose = true ∧ ∃ h', s'.dt = fin h' ∧ ρ * h ≤ h' ∧ h' ≤ σ * h := by
    cases ha with
    | @diverged s1 s2 fuel h1 h2 h3 h4 =>
      obtain ⟨-, d1, d2, -⟩ := H.decs hn R hm h1
      obtain ⟨y, y1, y2, y3⟩ := newton_retry (s := tick s1) d1 h4
      refine ⟨((facs_closedN _ _ _).newton (s := tick s1) ⟨rfl, rfl, d2⟩ h4).2.2, _, y1, ?_, ?_⟩
      · rw [mul_comm h]; exact mul_le_mul_of_nonneg_right (S.ρ1.trans y2) H.pos.le
      · rw [mul_comm h]; exact mul_le_mul_of_nonneg_right (y3.trans S.σ2) H.pos.le
    | @again s1 s2 fuel h1 h2 h3 h4 h5 =>
      obtain ⟨-, d1, d2, hr⟩ := H.decs hn R hm h1
      obtain ⟨J, hr⟩ := hr h3
      have hL2 : L (decided s2) := L.closed.decided (L.closed.newton (s := tick s1) (show L s1 from L.closed.decPhase H.lst h1) h4)
      rw [control_eq] at h5 ⊢
      split at h5
      · rw [acceptStep_reject_of_L _ hL2] at h5; simp at h5
      · rename_i hlt
        rw [if_neg hlt]
        have hlt : Fl.lt (decided s2).cache.err 1.0 = false := by simpa using hlt
        obtain ⟨h', hc⟩ := Clk.closed.decided (Clk.closed.newton ⟨h, hr.clk⟩ h4)
        have fl := newton_flags h4
        simp at fl
        obtain rfl : h' = h := by
          have := hc.step
          rw [decided_dt, fl.2.2, hr.clk.step, fin_inj] at this
          exact this.symm
        exact ⟨by rw [(rejectStep_facs _ _).2.2, (decided_facs s2).2.2.1], hc.reject_dt S H.pos hlt⟩
  obtain ⟨k1, h', k2, k3, k4⟩ := key
  have fr := sp.frame
  refine ⟨h', ⟨H.head.att H.lst ha, k2, (mul_pos S.ρ0 H.pos).trans_le k3, sp.L, k1, H.fac.att ha, fr.u.trans H.state,
    fr.u0.trans H.deriv, H.a0, H.r0, fr.scal.trans H.scal, by rw [fr.opts]; exact H.fnewt, by rw [fr.opts]; exact H.max_newt,
    by rw [fr.opts]; exact H.ext, ?_, ⟨fr.ts.trans H.recd.1, fr.us.trans H.recd.2⟩⟩, k3, k4⟩
  exact Closed.attsL (JacInv.closed (f := b.dudt) (g := b.dfdu) (p := b.params)) (fun h => h) (fun h _ => h.reject _) H.lst H.jinv
    (.succ ha (.zero _))

/-- A small step: the error and the number of iterations of the attempt. -/
theorem Trying.small (hn : n ≠ 0) (H : Trying b f jac u0 C fwd l a r φ t u s h) (R : RealProblem b f jac u0)
    (hm : Mild f jac M B h) (g1 : 30 * B * h ≤ 1) (g2 : 124 * M * h ≤ a * φ) (g3 : 22 * M * h ≤ a * ε)
    (ε0 : 1e-10 ≤ ε) (ε1 : ε < 1) {fuel : ℕ} {s1 s2 : St X n P} {c : Bool} (h1 : decPhase fuel s = .ok (s1, true))
    (h3 : tooSmall s1 = false) (h4 : newton (tick s1) = .ok (s2, c)) :
    c = true ∧ s2.cache.newt = 1 ∧ Fl.lt (decided s2).cache.err 1.0 = true ∧
      ∃ e, (decided s2).cache.err = fin e ∧ 0 < e ∧ e ≤ ε := by
  obtain ⟨-, -, -, hr⟩ := H.decs hn R hm h1
  obtain ⟨J, hr⟩ := hr h3
  obtain ⟨s2', k1, k2⟩ := hr.small hn g1 g2 g3 ε0 ε1
  rw [k1] at h4
  obtain ⟨rfl, rfl⟩ := Prod.mk.inj (Res.ok.inj h4)
  exact ⟨rfl, k2⟩

theorem Trying.no_att (hn : n ≠ 0) (H : Trying b f jac u0 C fwd l a r φ t u s h) (R : RealProblem b f jac u0)
    (hm : Mild f jac M B h) (g1 : 30 * B * h ≤ 1) (g2 : 124 * M * h ≤ a * φ) (g3 : 22 * M * h ≤ a * ε)
    (ε0 : 1e-10 ≤ ε) (ε1 : ε < 1) : ¬ Att s s' := by
  intro ha
  cases ha with
  | @diverged s1 s2 fuel h1 h2 h3 h4 =>
    obtain ⟨hc, -⟩ := H.small hn R hm g1 g2 g3 ε0 ε1 h1 h3 h4
    simp at hc
  | @again s1 s2 fuel h1 h2 h3 h4 h5 =>
    obtain ⟨-, -, hlt, -⟩ := H.small hn R hm g1 g2 g3 ε0 ε1 h1 h3 h4
    have hL2 : L (decided s2) := L.closed.decided (L.closed.newton (s := tick s1) (show L s1 from L.closed.decPhase H.lst h1) h4)
    rw [control_eq, if_pos hlt, acceptStep_reject_of_L _ hL2] at h5
    simp at h5

theorem SmallStep.mono {hs : ℝ} (Z : SmallStep M B a φ ε hs) (M0 : 0 ≤ M) (B0 : 0 ≤ B) {h : ℝ} (hh : h ≤ hs) :
    30 * B * h ≤ 1 ∧ 124 * M * h ≤ a * φ ∧ 22 * M * h ≤ a * ε :=
  ⟨(mul_le_mul_of_nonneg_left hh (by positivity)).trans Z.jac, (mul_le_mul_of_nonneg_left hh (by positivity)).trans Z.newt,
    (mul_le_mul_of_nonneg_left hh (by positivity)).trans Z.err⟩

theorem Mild.mono {T T' : ℝ} (hm : Mild f jac M B T) (h : T' ≤ T) : Mild f jac M B T' :=
  ⟨hm.rhs, hm.rows, fun t u x x0 hx => hm.regular t u x x0 (hx.trans h)⟩

/-- The attempts of a call: the step is at least `ρ hs` if an attempt failed, and `j` failures reduce it by `σ ^ j`. -/
theorem Trying.atts {hs h0 : ℝ} (hn : n ≠ 0) (R : RealProblem b f jac u0) (S : Shrink C ρ σ) (Z : SmallStep M B a φ ε hs) {j : ℕ}
    (ha : Atts j s s') (H : Trying b f jac u0 C fwd l a r φ t u s h0) (hm : Mild f jac M B h0) :
    ∃ h, Trying b f jac u0 C fwd l a r φ t u s' h ∧ h ≤ h0 ∧ (j = 0 → h = h0) ∧ (j ≠ 0 → ρ * hs ≤ h ∧ h ≤ σ * h0) ∧
      ∀ K : ℕ, σ ^ K * h0 ≤ hs → j ≤ K := by
  have i0 : _root_.Fin n := ⟨0, Nat.pos_of_ne_zero hn⟩
  have M0 : 0 ≤ M := (abs_nonneg _).trans (hm.rhs 0 0 i0)
  have B0 : 0 ≤ B := (Finset.sum_nonneg fun _ _ => abs_nonneg _).trans (hm.rows 0 0 i0)
  have σ0 : 0 < σ := lt_of_lt_of_le (by norm_num) S.σ2
  induction ha generalizing h0 with
  | zero s => exact ⟨h0, H, le_rfl, fun _ => rfl, by simp, fun _ _ => Nat.zero_le _⟩
  | @succ j s s1 s' h1 h2 ih =>
    obtain ⟨h, H1, k1, k2⟩ := H.att hn R S hm h1
    have hle : h ≤ h0 := k2.trans (mul_le_of_le_one_left H.pos.le S.σ1.le)
    have hbig : hs < h0 := by
      by_contra hc
      obtain ⟨g1, g2, g3⟩ := Z.mono M0 B0 (not_lt.1 hc)
      exact H.no_att hn R hm g1 g2 g3 Z.ε0 Z.ε1 h1
    obtain ⟨h', H2, m1, m2, m3, m4⟩ := ih H1 (hm.mono hle)
    refine ⟨h', H2, m1.trans hle, by simp, fun _ => ⟨?_, m1.trans k2⟩, fun K hK => ?_⟩
    · by_cases hj : j = 0
      · rw [m2 hj]
        exact (mul_le_mul_of_nonneg_left hbig.le S.ρ0.le).trans k1
      · exact (m3 hj).1
    · cases K with
      | zero => simp at hK; linarith
      | succ K =>
        have := m4 K ((mul_le_mul_of_nonneg_left k2 (by positivity)).trans (by rw [← mul_assoc, ← pow_succ]; exact hK))
        omega

end

end
end Radau
end Cyphus
