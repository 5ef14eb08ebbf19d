import Verif.Proofs.DP5Round
import Verif.Props.Double
import Verif.Props.Convergence
/-!
# C78: accuracy of DormandPrince5 in double precision

Level F, for the double-precision numbers `B64` of `Verif/Arith/Binary64.lean`.
-/

namespace Cyphus
open X B64 Set
set_option linter.unusedSectionVars false
set_option autoImplicit false
noncomputable section
variable {n : ℕ} {P : Type}

/-- `l` lists the values of the recorded times and states (which are all finite). -/
def Recorded64 (sol : Solution B64 n) (l : List (ℝ × (Fin n → ℝ))) : Prop :=
  sol.ts.map B64.x = l.map (fun p => fin p.1) ∧ sol.us.map (fun u i => (u i).x) = l.map (fun p i => fin (p.2 i))

/-- The value of the step size of an accepted step is finite and not negative. -/
theorem DP5.FloatInv.dtprev {F : Type} [Add F] [Sub F] [Mul F] [Div F] [Neg F] [OfScientific F] [Fl F] [FlInf F] {val : F → X}
    {rnd : ℝ → X} (L : FloatLaws val rnd) {o : Opts F} {t0 tf t : ℝ} {s s' : DP5.St F n P} (hS : FloatSane o)
    (hl : rnd (tf - t0) ≠ pinf) (I : FloatInv val o t0 tf t s) {fuel : ℕ} (h : DP5.step fuel s = .ok s') :
    ∃ x, val s'.dtprev = fin x ∧ 0 ≤ x := by
  obtain ⟨k, s1, -, hr, he, -, rfl, sp⟩ := step_spec h
  obtain ⟨h0, e0, B⟩ := I.clamp L hl
  have F0 := Frame.clampLast s
  have hS' : FloatSane (DP5.clampLast s).opts := by rw [F0.opts, I.opts]; exact hS
  obtain ⟨⟨h1, e1, b1, b2⟩, -⟩ := hr.shrinks L hS' (t := t) (by rw [F0.t]; exact I.time) e0 B.1
  exact ⟨h1, by simpa using e1, b1⟩

/-- How the error bound grows in a step. -/
theorem double_growth {L K h D E e0 a t τ x z x' : ℝ} {j : ℕ} (hL : 0 ≤ L) (hK : 0 ≤ K) (hD : 0 ≤ D) (hE : 0 ≤ E)
    (ht : a ≤ t) (hτ0 : 0 ≤ τ) (hτ : τ ≤ h) (hx0 : 0 ≤ x)
    (hx : x ≤ Real.exp (4 * L * (t - a)) * (e0 + (K * h ^ 5 + 2 * D) * (t - a) + j * E))
    (hz : z ≤ (1 + 4 * L * τ) * x + K * τ ^ 6) (hx' : x' ≤ z + (2 * τ * D + E)) :
    x' ≤ Real.exp (4 * L * (t + τ - a)) * (e0 + (K * h ^ 5 + 2 * D) * (t + τ - a) + (j + 1 : ℕ) * E) := by
  have e1 : (1 + 4 * L * τ) * x ≤ Real.exp (4 * L * τ) *
      (Real.exp (4 * L * (t - a)) * (e0 + (K * h ^ 5 + 2 * D) * (t - a) + j * E)) :=
    mul_le_mul (by linarith [Real.add_one_le_exp (4 * L * τ)]) hx hx0 (Real.exp_pos _).le
  rw [← mul_assoc, ← Real.exp_add, show 4 * L * τ + 4 * L * (t - a) = 4 * L * (t + τ - a) by ring] at e1
  have e2 : (1 : ℝ) ≤ Real.exp (4 * L * (t + τ - a)) := Real.one_le_exp (by
    have : 0 ≤ t + τ - a := by linarith
    positivity)
  have e3 : K * τ ^ 6 ≤ K * h ^ 5 * τ := by
    have i1 : τ ^ 5 ≤ h ^ 5 := pow_le_pow_left₀ hτ0 hτ 5
    calc K * τ ^ 6 = K * τ ^ 5 * τ := by ring
      _ ≤ K * h ^ 5 * τ := by gcongr
  have hh : 0 ≤ h := hτ0.trans hτ
  have e4 : 1 * (K * h ^ 5 * τ + (2 * τ * D + E)) ≤ Real.exp (4 * L * (t + τ - a)) * (K * h ^ 5 * τ + (2 * τ * D + E)) :=
    mul_le_mul_of_nonneg_right e2 (by positivity)
  have e5 : Real.exp (4 * L * (t + τ - a)) * (e0 + (K * h ^ 5 + 2 * D) * (t + τ - a) + (j + 1 : ℕ) * E) =
      Real.exp (4 * L * (t + τ - a)) * (e0 + (K * h ^ 5 + 2 * D) * (t - a) + j * E) +
        Real.exp (4 * L * (t + τ - a)) * (K * h ^ 5 * τ + (2 * τ * D + E)) := by push_cast; ring
  linarith

/-- **C78** DormandPrince5 in double precision. Let `f` be a right-hand side with constants `R`, `M`, `L`, `N` and `K` near the
solution `y`, as in C68, and let the code evaluate it with an error of at most `δ`. The initial value may be off by `e0`. If no
recorded step of a forward run is longer than `h`, then all recorded states are finite, and the `j`-th one is within
`exp(4 L T) (e0 + T (K h^5 + 2 D) + j E)` of the solution. Here `T = tf - t0`, and `E` is about as large as the rounding error of
a state, and `D` is twice the error in the evaluation of the right-hand side, including the rounding of its arguments. -/
theorem C78_double_dp5 {b : Builder B64 n P} {f : ℝ → (Fin n → ℝ) → Fin n → ℝ} {y : ℝ → Fin n → ℝ}
    {t0 tf R M L N δ K h1 h E D e0 : ℝ} {s0 s : DP5.St B64 n P} {k : ℕ}
    (H : DoubleSpan b) (hS : DP5.FloatSane b.opts) (ht0 : b.t.x = fin t0) (htf : b.tfinal.x = fin tf)
    (hi : IgnoresBuffer b.dudt) (hg : Spec.Evaluates (fun u t => b.dudt b.params u u t) f t0 tf R δ)
    (B : Spec.Bounded f t0 tf y R M L) (hN : Spec.TimeLip f t0 tf R N) (hN0 : 0 ≤ N) (hδ : 0 ≤ δ) (hK : 0 ≤ K)
    (hloc : Spec.LocalError f t0 tf y K h1) (he0 : 0 ≤ e0) (hu0 : ∀ i, ∃ w, (b.u i).x = fin w ∧ |w - y t0 i| ≤ e0)
    (hE : E = Spec.roundoff * (25 * (M + 1) * tf + R + 30)) (hD : D = 2 * δ + 2 * L * E + 20 * Spec.roundoff * N * tf)
    (g1 : E ≤ 1 / 4) (g2 : D ≤ 1 / 8) (g3 : h ≤ h1) (g4 : 25 * (M + 1) * h ≤ 1) (g5 : 100 * L * h ≤ 1)
    (g6 : Spec.roundoff * tf ≤ h) (g7 : 2 ^ (-900 : ℤ) ≤ tf)
    (g8 : Real.exp (4 * L * (tf - t0)) * (e0 + (K * h ^ 5 + 2 * D) * (tf - t0) + k * E) ≤ 1 / 2)
    (hb : b.build DP5.alg = .ok s0) (hs : Steps DP5.alg none k s0 s)
    (hch : s.sol.ts.IsChain fun a c => ∀ x z, a.x = fin x → c.x = fin z → z - x ≤ h) :
    ∃ l, Recorded64 s.sol l ∧ l.length = k + 1 ∧ (∀ p, l[k]? = some p → s.t.x = fin p.1 ∧ ∀ i, (s.u i).x = fin (p.2 i)) ∧
      ∀ (j : ℕ) p, l[j]? = some p → p.1 ∈ Icc t0 tf ∧
        ∀ i, |p.2 i - y p.1 i| ≤ Real.exp (4 * L * (tf - t0)) * (e0 + (K * h ^ 5 + 2 * D) * (tf - t0) + j * E) := by
  have ht00 : 0 ≤ t0 := by
    have := H.nonneg
    rw [laws.le_zero_iff, ht0] at this
    simpa using this
  have U : Budget f (fun u t => b.dudt b.params u u t) t0 tf R M L N δ E D h :=
    ⟨B.conv, hN, hg, B.R0, hN0, hδ, ht00, g7, hE, hD, g1, g2, g6, g4, g5⟩
  have hL := B.L0
  have hR := B.R0
  have hh := U.h0
  have hD0 := U.sizes.D0
  have hE0 := U.E0
  obtain ⟨t0', tf', q0, hl, I0⟩ := DP5.FloatInv.build laws H.toForwardSpan hb
  have et0 : t0' = t0 := by rw [ht0] at q0; exact (fin_inj.1 q0).symm
  have etf : tf' = tf := by
    have := I0.tfinal
    rw [show s0.tfinal = b.tfinal by rw [← Res.ok.inj hb], htf] at this
    exact (fin_inj.1 this).symm
  subst et0 etf
  -- the bound in the middle of the run
  have hmid : ∀ {j : ℕ} {t : ℝ}, j ≤ k → t0' ≤ t → t ≤ tf' →
      Real.exp (4 * L * (t - t0')) * (e0 + (K * h ^ 5 + 2 * D) * (t - t0') + j * E) ≤
      Real.exp (4 * L * (tf' - t0')) * (e0 + (K * h ^ 5 + 2 * D) * (tf' - t0') + j * E) := by
    intro j t hj h1 h2
    have i1 : 0 ≤ t - t0' := by linarith
    have i2 : t - t0' ≤ tf' - t0' := by linarith
    gcongr
  have hmono : ∀ {j : ℕ}, j ≤ k → Real.exp (4 * L * (tf' - t0')) * (e0 + (K * h ^ 5 + 2 * D) * (tf' - t0') + j * E) ≤ 1 / 2 := by
    intro j hj
    refine le_trans ?_ g8
    have : (j : ℝ) ≤ k := by exact_mod_cast hj
    gcongr
  have key : ∀ (j : ℕ) (s : DP5.St B64 n P), j ≤ k → Steps DP5.alg none j s0 s →
      (s.sol.ts.IsChain fun a c => ∀ x z, a.x = fin x → c.x = fin z → z - x ≤ h) →
      ∃ l τ υ, Recorded64 s.sol l ∧ l.length = j + 1 ∧ l.getLast? = some (τ, υ) ∧ s.t.x = fin τ ∧ (∀ i, (s.u i).x = fin (υ i)) ∧
        s.sol.ts.getLast? = some s.t ∧
        ∀ (i : ℕ) p, l[i]? = some p → p.1 ∈ Icc t0' tf' ∧ ‖p.2 - y p.1‖ ≤
          Real.exp (4 * L * (p.1 - t0')) * (e0 + (K * h ^ 5 + 2 * D) * (p.1 - t0') + i * E) := by
    intro j
    induction j with
    | zero =>
      intro s _ hs _
      obtain rfl := Steps.zero_eq rfl hs
      have Bf := DP5.build_fields hb
      choose w hw1 hw2 using hu0
      have hu : s.u = b.u := by rw [← Res.ok.inj hb]
      have ht : s.t = b.t := by rw [← Res.ok.inj hb]
      refine ⟨[(t0', w)], t0', w, ⟨?_, ?_⟩, rfl, rfl, by rw [ht]; exact q0, by rw [hu]; exact hw1, ?_, ?_⟩
      · rw [Bf.1]; simp [ht, q0]
      · rw [Bf.2.1]; simp [hu, hw1]
      · rw [Bf.1]; simp [ht]
      · intro i p hp
        rcases i with _ | i
        · simp at hp
          subst hp
          refine ⟨⟨le_rfl, I0.le⟩, ?_⟩
          simp only [sub_self, mul_zero, Real.exp_zero, Nat.cast_zero, zero_mul, add_zero, one_mul]
          exact (pi_norm_le_iff_of_nonneg he0).2 hw2
        · simp at hp
    | succ j ih =>
      intro s' hj hs hch
      obtain ⟨s1, o, h1s, h2⟩ := Steps.cases_snoc hs
      have h2' := h2
      obtain ⟨⟨fuel, h2⟩, -⟩ := stepReturns_none_iff.1 h2
      obtain ⟨_, _, _, _, _, _, _, sp⟩ := DP5.step_spec h2
      have hch1 := hch
      rw [sp.ts, List.isChain_append] at hch1
      obtain ⟨l, τ, υ, hrec, hlen, hlast, ht, hu, htl, hall⟩ := ih s1 (by omega) h1s hch1.1
      have C := C63_double_run_dp5 H hS hb hs
      have C1 := C63_double_run_dp5 H hS hb h1s
      obtain ⟨tt, I, -⟩ := DP5.FloatInv.run laws hS hl I0 hb h1s fun x hx => (C1.2.1 x hx).2
      obtain ⟨d, err, hfs, -, hadd, hdp⟩ := ((DP5.Fsal.run hi hb h1s).step hi h2).2
      obtain ⟨x, hx, hx0⟩ := I.dtprev laws hS hl h2
      rw [hdp] at hx
      -- the next time
      have hin := C.2.1 s'.t (by rw [sp.ts]; simp)
      have hpw := C.1
      rw [sp.ts, List.pairwise_append] at hpw
      have hle := hpw.2.2 s1.t (List.mem_of_getLast? htl) s'.t (by simp)
      rw [laws.le, ht] at hle
      have hle2 := hin.2
      rw [laws.le, htf] at hle2
      obtain ⟨τ', ht', hττ, hτf⟩ := mid_cases hle hle2
      have hstep : τ' - τ ≤ h := hch1.2.2 s1.t (by simpa using htl) s'.t (by simp) τ τ' ht ht'
      have hL1 : l[j]? = some (τ, υ) := by
        rw [List.getLast?_eq_getElem?, hlen] at hlast
        simpa using hlast
      obtain ⟨⟨m1, m2⟩, m3⟩ := hall j (τ, υ) hL1
      simp only at m1 m2 m3
      have m4 := (m3.trans (hmid (by omega) m1 m2)).trans (hmono (by omega))
      have hyb : ‖y τ‖ ≤ R := (pi_norm_le_iff_of_nonneg hR).2 (B.sol τ ⟨m1, m2⟩)
      have hυ : ‖υ‖ ≤ R + 1 / 2 := by
        have := norm_add_le_of_le m4 hyb
        rw [sub_add_cancel] at this
        linarith
      have V : Vals t0' tf' R h s1.t d s1.u υ τ τ' x :=
        ⟨ht, hx, by rw [← hadd]; exact ht', hu, hx0, m1, hττ, hτf, hstep, fun i => (norm_le_pi_norm υ i).trans hυ⟩
      obtain ⟨w, hw1, hw2⟩ := step_near U V hfs
      have hnew : ‖w - y τ'‖ ≤ Real.exp (4 * L * (τ' - t0')) * (e0 + (K * h ^ 5 + 2 * D) * (τ' - t0') + (j + 1 : ℕ) * E) := by
        have hτ0 : 0 ≤ τ' - τ := by linarith
        have r1 : ‖w - Conv.step f τ υ (τ' - τ)‖ ≤ 2 * (τ' - τ) * D + E := (pi_norm_le_iff_of_nonneg (by positivity)).2 hw2
        have r2 := Conv.step_lip B.conv (u := υ) (v := y τ) (t := τ) (h := τ' - τ) (by linarith) (by linarith) m1 hτ0 (by linarith)
          (by
            have i1 := mul_le_mul_of_nonneg_left hstep B.M0
            have i2 := g4
            linarith) (by
            have i1 := mul_le_mul_of_nonneg_left hstep hL
            have i2 := g5
            linarith [mul_nonneg hL hh.le])
        have r3 : ‖Conv.step f τ (y τ) (τ' - τ) - y τ'‖ ≤ K * (τ' - τ) ^ 6 := by
          refine (pi_norm_le_iff_of_nonneg (by positivity)).2 fun i => ?_
          obtain ⟨v, hv⟩ : ∃ v, Spec.IsStep Spec.dopri5 f τ (y τ) (τ' - τ) v := ⟨_, (DP5.isStep_iff f τ (y τ) (τ' - τ) _).2 rfl⟩
          have := hloc τ (τ' - τ) v m1 hτ0 (by linarith) (hstep.trans g3) hv i
          rwa [DP5.step_of_isStep hv, add_sub_cancel] at this
        have r4 := norm_add_le_of_le r2 r3
        rw [sub_add_sub_cancel] at r4
        have r5 := norm_add_le_of_le r1 (le_refl ‖Conv.step f τ υ (τ' - τ) - y τ'‖)
        rw [sub_add_sub_cancel] at r5
        have := double_growth (t := τ) (τ := τ' - τ) (a := t0') (j := j) hL hK hD0 hE0 m1 hτ0 hstep (norm_nonneg _) m3 r4
          (by linarith)
        rwa [add_sub_cancel] at this
      refine ⟨l ++ [(τ', w)], τ', w, ⟨?_, ?_⟩, by simp [hlen], by simp, ht', hw1, by rw [sp.ts]; simp, ?_⟩
      · rw [sp.ts, List.map_append, hrec.1]; simp [ht']
      · rw [sp.us, List.map_append, hrec.2]; simp [hw1]
      · intro i p hp
        rcases lt_or_ge i (j + 1) with hi1 | hi1
        · rw [List.getElem?_append_left (by rw [hlen]; exact hi1)] at hp
          exact hall i p hp
        · rw [List.getElem?_append_right (by rw [hlen]; exact hi1), hlen] at hp
          have h0 : i - (j + 1) = 0 := by
            by_contra hc
            rw [List.getElem?_singleton, if_neg hc] at hp
            simp at hp
          have hij : i = j + 1 := by omega
          subst hij
          simp at hp
          subst hp
          exact ⟨⟨by linarith, hτf⟩, hnew⟩
  obtain ⟨l, τ, υ, hrec, hlen, hlast, hst, hsu, -, hall⟩ := key k s le_rfl hs hch
  refine ⟨l, hrec, hlen, fun p hp => ?_, fun j p hp => ?_⟩
  · rw [List.getLast?_eq_getElem?, hlen, Nat.add_sub_cancel, hp] at hlast
    obtain rfl := Option.some.inj hlast
    exact ⟨hst, hsu⟩
  obtain ⟨h1, h2⟩ := hall j p hp
  have hj : j ≤ k := by
    have := (List.getElem?_eq_some_iff.1 hp).1
    omega
  exact ⟨h1, fun i => (norm_le_pi_norm (p.2 - y p.1) i).trans (h2.trans (hmid hj h1.1 h1.2))⟩

theorem exists_timeLip {f : ℝ → (Fin n → ℝ) → Fin n → ℝ} (hf : ContDiff ℝ 1 (Function.uncurry f)) (t0 tf : ℝ) {R : ℝ} (hR : 0 ≤ R) :
    ∃ N, 0 ≤ N ∧ Spec.TimeLip f t0 tf R N := by
  have hs : IsCompact (Icc t0 tf ×ˢ Metric.closedBall (0 : Fin n → ℝ) (R + 2)) := isCompact_Icc.prod (isCompact_closedBall _ _)
  obtain ⟨L, hL⟩ := Conv.lipschitz_compact hf hs
  refine ⟨L, L.2, fun t ht s hs u hu i => ?_⟩
  have hu' : ‖u‖ ≤ R + 2 := (pi_norm_le_iff_of_nonneg (by linarith)).2 hu
  have := hL.dist_le_mul (t, u) ⟨ht, by simpa using hu'⟩ (s, u) ⟨hs, by simpa using hu'⟩
  rw [Prod.dist_eq, dist_self, max_eq_left dist_nonneg, dist_eq_norm, Real.dist_eq] at this
  exact (norm_le_pi_norm (f t u - f s u) i).trans this

/-- **C78** In double precision the error is of the form `C (e0 + h^5 + δ + (j + 1) 2^-53)`: for a problem whose right-hand side has
five continuous derivatives and whose solution exists on the whole span there are constants such that this holds for the `j`-th
recorded state of every forward run with recorded steps up to `h`, whatever the tolerances and the other options. Here `e0` is
the error of the initial value and `δ` the one of the evaluation of the right-hand side, and the last term comes from the rounding
of the states and times. If the run ends with `Success`, the final state is one at `tfinal`. -/
theorem C78_order_double_dp5 {f : ℝ → (Fin n → ℝ) → Fin n → ℝ} (hf : ContDiff ℝ 5 (Function.uncurry f)) {t0 tf : ℝ} (ht : t0 < tf)
    (htf : 2 ^ (-900 : ℤ) ≤ tf) {y : ℝ → Fin n → ℝ} (hy : Spec.IsSolution f t0 tf y) :
    ∃ R C hmax κ : ℝ, 0 < hmax ∧ 0 < κ ∧ ∀ (P : Type) (b : Builder B64 n P) (s0 s : DP5.St B64 n P) (k : ℕ) (h δ e0 : ℝ),
      DoubleSpan b → DP5.FloatSane b.opts → b.t.x = fin t0 → b.tfinal.x = fin tf → IgnoresBuffer b.dudt →
      Spec.Evaluates (fun u t => b.dudt b.params u u t) f t0 tf R δ → (∀ i, ∃ w, (b.u i).x = fin w ∧ |w - y t0 i| ≤ e0) →
      0 ≤ δ → 0 ≤ e0 → Spec.roundoff * tf ≤ h → h ≤ hmax → e0 + δ + (k + 1) * Spec.roundoff ≤ κ →
      b.build DP5.alg = .ok s0 → Steps DP5.alg none k s0 s →
      (s.sol.ts.IsChain fun a c => ∀ x z, a.x = fin x → c.x = fin z → z - x ≤ h) →
      (∃ l, Recorded64 s.sol l ∧ l.length = k + 1 ∧ ∀ (j : ℕ) p, l[j]? = some p → p.1 ∈ Icc t0 tf ∧
        ∀ i, |p.2 i - y p.1 i| ≤ C * (e0 + h ^ 5 + δ + (j + 1) * Spec.roundoff)) ∧
      (IntegrateReturns DP5.alg none s0 s → s.sol.retcode = .Success → s.t = b.tfinal ∧
        ∀ i, ∃ w, (s.u i).x = fin w ∧ |w - y tf i| ≤ C * (e0 + h ^ 5 + δ + (k + 1) * Spec.roundoff)) := by
  obtain ⟨⟨K, h1, hK, hh1, hloc⟩, R, M, L, B⟩ := C68_local_order_dp5 hf ht hy
  obtain ⟨N, hN0, hN⟩ := exists_timeLip (hf.of_le (by norm_num)) t0 tf B.R0
  have hM := B.M0
  have hL := B.L0
  have hR := B.R0
  have hT : 0 < tf - t0 := by linarith
  have htf0 : 0 < tf := (two_pow_pos _).trans_le htf
  obtain ⟨T, hT'⟩ : ∃ T, T = tf - t0 := ⟨_, rfl⟩
  obtain ⟨X, hX⟩ : ∃ X, X = Real.exp (4 * L * (tf - t0)) := ⟨_, rfl⟩
  obtain ⟨e, he⟩ : ∃ e, e = 25 * (M + 1) * tf + R + 30 := ⟨_, rfl⟩
  obtain ⟨d, hd⟩ : ∃ d, d = 2 * L * e + 20 * N * tf := ⟨_, rfl⟩
  obtain ⟨C, hC⟩ : ∃ C, C = X * (1 + T * K + 4 * T + 2 * T * d + e) := ⟨_, rfl⟩
  have hT0 : 0 < T := by rw [hT']; exact hT
  have hX0 : 0 < X := by rw [hX]; exact Real.exp_pos _
  have he0 : 0 < e := by rw [he]; positivity
  have hd0 : 0 ≤ d := by rw [hd]; positivity
  have hC0 : 0 < C := by rw [hC]; positivity
  refine ⟨R, C, min (min h1 1) (min (1 / (25 * (M + 1))) (min (1 / (100 * L + 1)) (1 / (4 * C)))),
    min (1 / (4 * e)) (min (1 / (8 * (2 + d))) (1 / (4 * C))), by positivity, by positivity, ?_⟩
  intro P b s0 s k h δ e1 H hS ht0 htf' hi hg hu hδ he1 g6 hh hκ hb hs hch
  have hu0 := unit64_pos
  have q1 : h ≤ h1 := hh.trans ((min_le_left _ _).trans (min_le_left _ _))
  have q2 : h ≤ 1 := hh.trans ((min_le_left _ _).trans (min_le_right _ _))
  have q3 : h ≤ 1 / (25 * (M + 1)) := hh.trans ((min_le_right _ _).trans (min_le_left _ _))
  have q4 : h ≤ 1 / (100 * L + 1) := hh.trans ((min_le_right _ _).trans ((min_le_right _ _).trans (min_le_left _ _)))
  have q5 : h ≤ 1 / (4 * C) := hh.trans ((min_le_right _ _).trans ((min_le_right _ _).trans (min_le_right _ _)))
  have r1 := hκ.trans (min_le_left _ _)
  have r2 := hκ.trans ((min_le_right _ _).trans (min_le_left _ _))
  have r3 := hκ.trans ((min_le_right _ _).trans (min_le_right _ _))
  rw [le_div_iff₀ (by positivity)] at q3 q4 q5 r1 r2 r3
  have h0 : 0 < h := (mul_pos hu0 htf0).trans_le g6
  have h5 : h ^ 5 ≤ h := by simpa using pow_le_pow_of_le_one h0.le q2 (show 1 ≤ 5 by norm_num)
  have h50 : 0 ≤ h ^ 5 := by positivity
  obtain ⟨w, hw⟩ : ∃ w, w = Spec.roundoff := ⟨_, rfl⟩
  have hw0 : 0 < w := by rw [hw]; exact hu0
  -- every bound is at most `C` times the sum of the errors
  have hbound : ∀ j : ℕ, X * (e1 + (K * h ^ 5 + 2 * (2 * δ + 2 * L * (w * e) + 20 * w * N * tf)) * T + j * (w * e)) ≤
      C * (e1 + h ^ 5 + δ + (j + 1) * w) := by
    intro j
    have hj : (0 : ℝ) ≤ j := by positivity
    have e2 : X * (e1 + (K * h ^ 5 + 2 * (2 * δ + 2 * L * (w * e) + 20 * w * N * tf)) * T + j * (w * e)) =
        X * (1 * e1 + T * K * h ^ 5 + 4 * T * δ + (2 * T * d * w + e * (j * w))) := by rw [hd]; ring
    rw [e2, hC, mul_assoc X]
    refine mul_le_mul_of_nonneg_left ?_ hX0.le
    have i0 : 0 ≤ T * K := by positivity
    have i1 : 0 ≤ 2 * T * d := by positivity
    have i2 : 1 * e1 ≤ (1 + T * K + 4 * T + 2 * T * d + e) * e1 := mul_le_mul_of_nonneg_right (by linarith) he1
    have i3 : T * K * h ^ 5 ≤ (1 + T * K + 4 * T + 2 * T * d + e) * h ^ 5 := mul_le_mul_of_nonneg_right (by linarith) h50
    have i4 : 4 * T * δ ≤ (1 + T * K + 4 * T + 2 * T * d + e) * δ := mul_le_mul_of_nonneg_right (by linarith) hδ
    have i5 : 2 * T * d * w ≤ (1 + T * K + 4 * T + 2 * T * d + e) * w := mul_le_mul_of_nonneg_right (by linarith) hw0.le
    have i6 : e * (j * w) ≤ (1 + T * K + 4 * T + 2 * T * d + e) * (j * w) := mul_le_mul_of_nonneg_right (by linarith) (by positivity)
    have e3 : (1 + T * K + 4 * T + 2 * T * d + e) * (e1 + h ^ 5 + δ + (j + 1) * w) =
      (1 + T * K + 4 * T + 2 * T * d + e) * e1 + (1 + T * K + 4 * T + 2 * T * d + e) * h ^ 5 + (1 + T * K + 4 * T + 2 * T * d + e) * δ +
      (1 + T * K + 4 * T + 2 * T * d + e) * w + (1 + T * K + 4 * T + 2 * T * d + e) * (j * w) := by ring
    linarith
  rw [← hw] at r1 r2 r3
  have hk : (0 : ℝ) ≤ k := by positivity
  have hkw : 0 ≤ k * w := by positivity
  have s1 : w * e ≤ 1 / 4 := by
    have : w * (4 * e) ≤ (e1 + δ + (k + 1) * w) * (4 * e) := mul_le_mul_of_nonneg_right (by linarith) (by positivity)
    linarith
  have s2 : 2 * δ + 2 * L * (w * e) + 20 * w * N * tf ≤ 1 / 8 := by
    have e2 : 2 * δ + 2 * L * (w * e) + 20 * w * N * tf = 2 * δ + d * w := by rw [hd]; ring
    have i1 : 2 * δ ≤ 2 * (e1 + δ + (k + 1) * w) := by linarith
    have i2 : d * w ≤ d * (e1 + δ + (k + 1) * w) := mul_le_mul_of_nonneg_left (by linarith) hd0
    rw [e2]; linarith
  have s3 : X * (e1 + (K * h ^ 5 + 2 * (2 * δ + 2 * L * (w * e) + 20 * w * N * tf)) * T + k * (w * e)) ≤ 1 / 2 := by
    refine (hbound k).trans ?_
    have i1 : C * h ^ 5 ≤ C * h := mul_le_mul_of_nonneg_left h5 hC0.le
    have e2 : C * (e1 + h ^ 5 + δ + (k + 1) * w) = C * (e1 + δ + (k + 1) * w) + C * h ^ 5 := by ring
    rw [e2]; linarith
  rw [hw, he, hT', hX] at s3
  rw [hw, he] at s1 s2
  obtain ⟨l, l1, l2, l4, l3⟩ := C78_double_dp5 H hS ht0 htf' hi hg B hN hN0 hδ hK hloc he1 hu rfl rfl s1 s2 q1 (by linarith) (by linarith)
    g6 htf s3 hb hs hch
  have l5 : ∀ (j : ℕ) p, l[j]? = some p → p.1 ∈ Icc t0 tf ∧
      ∀ i, |p.2 i - y p.1 i| ≤ C * (e1 + h ^ 5 + δ + (j + 1) * Spec.roundoff) := by
    refine fun j p hp => ⟨(l3 j p hp).1, fun i => ((l3 j p hp).2 i).trans ?_⟩
    have := hbound j
    rw [hw, he, hT', hX] at this
    exact this
  refine ⟨⟨l, l1, l2, l5⟩, fun hr hc => ?_⟩
  have ef := (C62_double_final_time_dp5 H hS hb hr hc).1
  obtain ⟨p, hp⟩ : ∃ p, l[k]? = some p := ⟨_, List.getElem?_eq_getElem (by omega)⟩
  obtain ⟨p1, p2⟩ := l4 p hp
  have hpf : p.1 = tf := by
    rw [ef, htf'] at p1
    exact (fin_inj.1 p1).symm
  refine ⟨ef, fun i => ⟨_, p2 i, ?_⟩⟩
  have := (l5 k p hp).2 i
  rwa [hpf] at this

/-! Examples: `u' = -u`, `u(0) = 1` on `[0, 1]`, and a complete run for `u' = 0`. -/

/-- The decay problem in double precision. -/
def decay64 : Builder B64 1 Unit := Builder.default DP5.alg (fun _ _ u _ i => -u i) (fun _ => 1.0) (dbl 0 0, dbl 1 0) ()

theorem dbl_zero : (dbl 0 0).x = fin 0 := by change fin _ = _; norm_num

theorem dbl_one : (dbl 1 0).x = fin 1 := by change fin _ = _; norm_num

theorem decay64_span : DoubleSpan decay64 where
  t := ⟨_, rfl⟩
  tfinal := ⟨_, rfl⟩
  length := by
    refine ⟨1, ?_⟩
    change ((dbl 1 0 - dbl 0 0 : B64)).x = _
    have := round64_rep (rep_pow 0)
    rw [sub_x, dbl_one, dbl_zero, sub_fin, round_fin]
    simpa using this
  lt := by
    change Fl.lt (dbl 0 0) (dbl 1 0) = true
    rw [laws.lt, dbl_one, dbl_zero]
    simp
  dt := by
    rw [laws.le_zero_iff]
    exact round_ge rep_zero (by norm_num)
  nonneg := by
    rw [laws.le_zero_iff]
    change Fl.le (fin 0) (dbl 0 0).x = true
    rw [dbl_zero]
    simp
  even := ⟨1, dbl_one, 1, 0, by norm_num, by norm_num, by norm_num, by norm_num⟩

theorem decay64_evaluates (t0 tf R : ℝ) :
    Spec.Evaluates (fun u t => decay64.dudt decay64.params u u t) (fun _ u i => -u i) t0 tf R 0 := by
  intro u t υ τ hu _ _ _ i
  refine ⟨-υ i, ?_, by simp⟩
  change (-u i).x = _
  rw [laws.neg, hu]; rfl

/-- Whatever the step-size control does: if the first 1000 steps are not longer than 0.01, they are accurate to nine digits. -/
example {s0 s : DP5.St B64 1 Unit} {k : ℕ} (hk : k ≤ 1000) (hb : decay64.build DP5.alg = .ok s0) (hs : Steps DP5.alg none k s0 s)
    (hch : s.sol.ts.IsChain fun a c => ∀ x z, a.x = fin x → c.x = fin z → z - x ≤ 0.01) :
    ∃ l, Recorded64 s.sol l ∧ l.length = k + 1 ∧ ∀ p ∈ l, p.1 ∈ Icc 0 1 ∧ |p.2 0 - Real.exp (-p.1)| ≤ 2e-9 := by
  have hr : Spec.roundoff ≤ 1.2e-16 := by norm_num [Spec.roundoff]
  have hr0 : 0 < Spec.roundoff := unit64_pos
  have h1 : Real.exp (4 * 1 * (1 - 0)) = Real.exp 1 ^ 4 := by rw [← Real.exp_nat_mul]; norm_num
  have h2 : Real.exp 1 ^ 4 ≤ 3 ^ 4 := pow_le_pow_left₀ (Real.exp_pos _).le (Real.exp_one_lt_d9.le.trans (by norm_num)) 4
  have hbd : ∀ j : ℕ, j ≤ 1000 → Real.exp (4 * 1 * (1 - 0)) * (0 + (0.01 * 0.01 ^ 5 + 2 * (2 * 0 + 2 * 1 *
      (Spec.roundoff * (25 * (3 + 1) * 1 + 1 + 30)) + 20 * Spec.roundoff * 0 * 1)) * (1 - 0) +
      j * (Spec.roundoff * (25 * (3 + 1) * 1 + 1 + 30))) ≤ 2e-9 := by
    intro j hj
    have hj' : (j : ℝ) ≤ 1000 := by exact_mod_cast hj
    have i1 : j * (Spec.roundoff * (25 * (3 + 1) * 1 + 1 + 30)) ≤ 1000 * (Spec.roundoff * (25 * (3 + 1) * 1 + 1 + 30)) :=
      mul_le_mul_of_nonneg_right hj' (by positivity)
    rw [h1]
    refine (mul_le_mul h2 (b := _) (d := (2.4e-11 : ℝ)) (by norm_num at i1 ⊢; linarith) (by positivity) (by norm_num)).trans ?_
    norm_num
  obtain ⟨l, l1, l2, -, l3⟩ := C78_double_dp5 (y := fun t _ => Real.exp (-t)) (h := 0.01) (e0 := 0) decay64_span DP5.default_sane64
    dbl_zero dbl_one (fun _ _ _ _ _ => rfl) (decay64_evaluates _ _ _) DP5.decay_bounded (N := 0) (fun _ _ _ _ _ _ _ => by simp) le_rfl le_rfl
    (by norm_num) DP5.decay_local le_rfl (fun _ => ⟨1, laws.one, by simp⟩) rfl rfl (by linarith) (by linarith) (by norm_num) (by norm_num)
    (by norm_num) (by linarith) (zpow_le_one_of_nonpos₀ one_le_two (by norm_num)) ((hbd k hk).trans (by norm_num)) hb hs hch
  refine ⟨l, l1, l2, fun p hp => ?_⟩
  obtain ⟨j, hj, rfl⟩ := List.mem_iff_getElem.1 hp
  obtain ⟨m1, m2⟩ := l3 j _ (List.getElem?_eq_getElem hj)
  exact ⟨m1, (m2 0).trans (hbd j (by omega))⟩

/-- A complete run to which C78 applies: it takes one step and ends with `Success`. -/
example : ∃ s0 s : DP5.St B64 1 Unit, (zero64 (dbl 0 0) (dbl 1 (-20))).build DP5.alg = .ok s0 ∧
    IntegrateReturns DP5.alg none s0 s ∧ s.sol.retcode = .Success ∧ s.t = dbl 1 (-20) ∧
    ∃ w, (s.u 0).x = fin w ∧ |w - 0| ≤ 2 ^ (-45 : ℤ) := by
  have hy : (dbl 1 (-20)).x = fin (2 ^ (-20 : ℤ)) := by change fin _ = _; norm_num
  obtain ⟨s0, s, hb, hi, hc, et, e⟩ := DP5.zero64_run (c := 2 ^ (-25 : ℤ)) dbl_zero hy (by norm_num) zero64_span.length
    (rep_int_pow 33 (-25)) (rep_pow (-25)) (by norm_num) (by norm_num) (by norm_num)
  have ef := (C62_double_final_time_dp5 zero64_span DP5.default_sane64 hb hi hc).1
  obtain ⟨k, s1, g1, g2⟩ := (integrate_iff DP5.fuelMono).1 hi
  have hs := g1.steps.succ g2
  have hlen := (C31_statistics_dp5 hb hs).2.2.1
  have hk : k + 1 = 1 := by rw [e] at hlen; simpa using hlen.symm
  rw [hk] at hs
  have hr : Spec.roundoff ≤ 1.2e-16 := by norm_num [Spec.roundoff]
  have hr0 : 0 < Spec.roundoff := unit64_pos
  have hbd : Real.exp (4 * 0 * (2 ^ (-20 : ℤ) - 0)) * (0 + (0 * (2 ^ (-20 : ℤ)) ^ 5 + 2 * (2 * 0 + 2 * 0 *
      (Spec.roundoff * (25 * (0 + 1) * 2 ^ (-20 : ℤ) + 0 + 30)) + 20 * Spec.roundoff * 0 * 2 ^ (-20 : ℤ))) * (2 ^ (-20 : ℤ) - 0) +
      (1 : ℕ) * (Spec.roundoff * (25 * (0 + 1) * 2 ^ (-20 : ℤ) + 0 + 30))) ≤ 2 ^ (-45 : ℤ) := by
    norm_num
    linarith
  have hloc : Spec.LocalError (n := 1) (fun _ _ _ => 0) 0 (2 ^ (-20 : ℤ)) (fun _ _ => 0) 0 1 := by
    intro t h u' _ _ _ _ hu i
    rw [DP5.step_of_isStep hu]
    simp [Conv.step, Conv.k6, Conv.s6, Conv.k5, Conv.s5, Conv.k4, Conv.s4, Conv.k3, Conv.s3, Conv.k2, Conv.s2, Conv.k1]
  have hch : s.sol.ts.IsChain fun a c => ∀ x z, a.x = fin x → c.x = fin z → z - x ≤ 2 ^ (-20 : ℤ) := by
    rw [e, ← et, ef]
    simp only [List.isChain_cons_cons, List.isChain_singleton, and_true]
    intro x z hx hz
    rw [dbl_zero] at hx
    rw [show (zero64 (dbl 0 0) (dbl 1 (-20))).tfinal = dbl 1 (-20) from rfl, hy] at hz
    rw [← fin_inj.1 hx, ← fin_inj.1 hz, sub_zero]
  obtain ⟨l, l1, l2, l4, l3⟩ := C78_double_dp5 (f := fun _ _ _ => 0) (y := fun _ _ => 0) (h := 2 ^ (-20 : ℤ)) (e0 := 0) (K := 0)
    (R := 0) (M := 0) (L := 0) (N := 0) (δ := 0) (h1 := 1) zero64_span DP5.default_sane64
    dbl_zero hy (fun _ _ _ _ _ => rfl) (fun _ _ _ _ _ _ _ _ _ => ⟨0, laws.zero, by simp⟩) ⟨by simp, le_rfl, le_rfl, le_rfl, by simp, by simp⟩
    (fun _ _ _ _ _ _ _ => by simp) le_rfl le_rfl le_rfl hloc le_rfl (fun _ => ⟨0, laws.zero, by simp⟩) rfl rfl
    (by norm_num; linarith) (by norm_num) (by norm_num) (by norm_num) (by norm_num) (by norm_num; linarith)
    (zpow_le_zpow_right₀ one_le_two (by norm_num)) (hbd.trans (by norm_num)) hb hs hch
  obtain ⟨p, hp⟩ : ∃ p, l[1]? = some p := ⟨_, List.getElem?_eq_getElem (by omega)⟩
  exact ⟨s0, s, hb, hi, hc, ef, p.2 0, (l4 p hp).2 0, ((l3 1 p hp).2 0).trans hbd⟩

end
end Cyphus
