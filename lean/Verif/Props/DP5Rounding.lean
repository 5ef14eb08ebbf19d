import Verif.Proofs.FloatBasic
import Verif.Proofs.RadauSpan
/-!
# C63: forward `DormandPrince5` runs with rounding

Level F: any floating-point arithmetic satisfying `FloatLaws`, for instance IEEE-754 doubles.
-/

namespace Cyphus
open X
set_option linter.unusedSectionVars false
set_option autoImplicit false
variable {F : Type} {n : Nat} {P : Type}
  [Add F] [Sub F] [Mul F] [Div F] [Neg F] [OfScientific F] [Fl F] [FlInf F] {val : F → X} {rnd : ℝ → X}

/-- A forward time span `t < tfinal` of finite numbers and finite length, with a nonnegative first step (all
comparisons being the ones of the arithmetic `F`). -/
structure ForwardSpan (val : F → X) (b : Builder F n P) : Prop where
  t : ∃ r, val b.t = fin r
  tfinal : ∃ r, val b.tfinal = fin r
  length : ∃ r, val (b.tfinal - b.t) = fin r
  lt : Fl.lt b.t b.tfinal = true
  dt : Fl.le 0.0 b.dt = true

/-- Controller options within their documented ranges (the comparisons are the ones of the arithmetic `F`). The
default options satisfy this in double precision. -/
structure DP5.FloatSane (o : Opts F) : Prop where
  safe_pos : Fl.lt 0.0 o.safe = true
  safe_le : Fl.le o.safe 1.0 = true
  facl_pos : Fl.lt 0.0 o.facl = true
  facl_le : Fl.le o.facl 1.0 = true
  facr : Fl.lt 0.0 (1.0 / o.facr) = true
  expo : Fl.le 0.0 (0.2 - Fl.powf o.beta 0.75) = true
  dtmax : Fl.le 0.0 o.dtmax = true

/-- `c` does not lie before `t`, and it lies beyond `tf` at most because `t + (tf - t)` is rounded. -/
def Within (t tf c : F) : Prop :=
  Fl.le t c = true ∧ (Fl.le c tf = true ∨ Fl.le c (t + (tf - t)) = true)

namespace DP5

/-- The state of a forward run: `t` and `tf` are the values of the current and the final time. -/
structure FloatInv (val : F → X) (o : Opts F) (t0 tf t : ℝ) (s : St F n P) : Prop where
  time : val s.t = fin t
  tfinal : val s.tfinal = fin tf
  ge : t0 ≤ t
  le : t ≤ tf
  tdir : val s.tdir = fin 1
  opts : s.opts = o
  dt : Fl.le (fin 0) (val s.dt) = true

variable {o : Opts F} {t0 tf t : ℝ} {s s' : St F n P}

/-- `h` is a step from `t` that may pass the end only by rounding. -/
def Bounded (val : F → X) (s : St F n P) (tf h : ℝ) : Prop :=
  0 ≤ h ∧ ∀ a : F, ∀ k, val a = fin k → 0 ≤ k → k ≤ h →
    Fl.le (val (s.t + a)) (fin tf) = true ∨ Fl.le (val (s.t + a)) (val (s.t + (s.tfinal - s.t))) = true

theorem Bounded.mono {h k : ℝ} (H : Bounded val s tf h) (k0 : 0 ≤ k) (hk : k ≤ h) : Bounded val s tf k :=
  ⟨k0, fun a x ha x0 hx => H.2 a x ha x0 (hx.trans hk)⟩

theorem FloatInv.clamp (L : FloatLaws val rnd) (hl : rnd (tf - t0) ≠ pinf) (I : FloatInv val o t0 tf t s) :
    ∃ h, val (clampLast s).dt = fin h ∧ Bounded val s tf h := by
  have hd : ∃ d, val (s.tfinal - s.t) = fin d ∧ 0 ≤ d := by
    have h1 : val (s.tfinal - s.t) = rnd (tf - t) := by rw [L.sub, I.tfinal, I.time, sub_fin, round_fin]
    have h2 := L.rnd_nonneg (x := tf - t) (by linarith [I.le])
    have h3 := L.rnd_mono (x := tf - t) (y := tf - t0) (by linarith [I.ge])
    rw [h1]
    obtain ⟨y, e, hy⟩ | e := ge_cases h2
    · exact ⟨y, e, hy⟩
    · exfalso
      rw [e] at h3
      cases h : rnd (tf - t0) <;> simp_all [Fl.le, leX]
  unfold clampLast
  split
  · obtain ⟨d, e, d0⟩ := hd
    exact ⟨d, e, d0, fun a k ha k0 hk => .inr ((L.add_mono I.time ha k0).2 _ _ e hk)⟩
  · rename_i hc
    obtain ⟨c, hc1, hc2, hc3⟩ := L.lit_one_two 101 true 2 (by norm_num) (by norm_num)
    have hc' : Fl.lt (fin 0) (val ((s.t + 1.01 * s.dt - s.tfinal) * s.tdir)) = false := by
      rw [← L.lt_zero_iff]; simpa [Fl.gt] using hc
    -- multiplication by the direction does not matter
    have hm : ∀ x : F, Fl.lt (fin 0) (val (x * s.tdir)) = false → Fl.lt (fin 0) (val x) = false := by
      intro x hx
      by_contra hh
      rw [Bool.not_eq_false] at hh
      rw [L.mul, I.tdir] at hx
      obtain ⟨y, e, hy⟩ | e := gt_cases hh
      · rw [e, mul_fin, mul_one, round_fin, L.rnd_val e, lt_fin] at hx
        simp at hx; linarith
      · rw [e, pinf_mul one_pos] at hx
        simp [Fl.lt, ltX] at hx
    have hc' := hm _ hc'
    obtain ⟨h, e, h0⟩ | e := ge_cases I.dt
    · refine ⟨h, e, h0, fun a k ha k0 hk => .inl ?_⟩
      exact le_trans' ((L.add_mono I.time ha k0).2 _ _ e hk) (L.stretch I.time e h0 I.tfinal hc1 hc2 hc')
    · exfalso
      rw [L.sub, L.add, L.mul, show (1.01 : F) = OfScientific.ofScientific 101 true 2 from rfl, hc1, e,
        mul_pinf (by linarith), round_pinf, I.time, fin_add_pinf, round_pinf, I.tfinal, pinf_sub_fin, round_pinf] at hc'
      simp [Fl.lt, ltX] at hc'

theorem FloatSane.safe (L : FloatLaws val rnd) (hS : FloatSane o) : ∃ x, val o.safe = fin x ∧ 0 < x ∧ x ≤ 1 := by
  have h1 := hS.safe_pos
  have h2 := hS.safe_le
  rw [L.lt_zero_iff] at h1
  rw [L.le, L.one] at h2
  obtain ⟨y, e, hy⟩ | e := gt_cases h1
  · rw [e] at h2; exact ⟨y, e, hy, by simpa using h2⟩
  · rw [e] at h2; simp [Fl.le, leX] at h2

theorem FloatSane.fac1 (L : FloatLaws val rnd) (hS : FloatSane o) : Fl.le (fin 1) (val (1.0 / o.facl)) = true := by
  have h1 := hS.facl_pos
  have h2 := hS.facl_le
  rw [L.lt_zero_iff] at h1
  rw [L.le, L.one] at h2
  obtain ⟨y, e, hy⟩ | e := gt_cases h1
  · rw [e] at h2
    have h2 : y ≤ 1 := by simpa using h2
    rw [L.div _ _ (by rw [e]; simpa using hy.ne'), L.one, e, div_fin hy.ne', round_fin]
    exact L.one_le_rnd (by rw [le_div_iff₀ hy]; linarith)
  · rw [e] at h2; simp [Fl.le, leX] at h2

/-- A rejected attempt does not enlarge the step. -/
theorem retry_shrinks (L : FloatLaws val rnd) (hS : FloatSane s.opts) (he : Fl.le (errOf s) 1.0 = false) {h : ℝ}
    (hh : val s.dt = fin h) (h0 : 0 ≤ h) : ∃ k, val (retry s).dt = fin k ∧ 0 ≤ k ∧ k ≤ h := by
  rw [retry_dt]
  refine L.div_shrink hh h0 ?_
  rw [L.min]
  refine le_min' (hS.fac1 L) ?_
  obtain ⟨x, e, x0, x1⟩ := hS.safe L
  rw [L.div _ _ (by rw [e]; simpa using x0.ne'), e]
  have hp : Fl.lt (val (fac11 s.opts (errOf s))) (fin 1) = false := by
    refine L.pow_ge ?_ ?_
    · rw [L.le, L.one] at he
      exact not_le_cases he
    · have := hS.expo
      rwa [L.le_zero_iff] at this
  obtain e1 | h1 := not_lt_cases hp
  · left; rw [e1]; rfl
  · right
    obtain ⟨y, e1, hy⟩ | e1 := ge_cases h1
    · rw [e1, div_fin x0.ne', round_fin]
      exact L.one_le_rnd (by rw [le_div_iff₀ x0]; linarith)
    · rw [e1, pinf_div x0.le, round_pinf]; rfl

/-- The evaluation times of one attempt. -/
theorem stage_times (L : FloatLaws val rnd) {h : ℝ} (ht : val s.t = fin t) (hh : val s.dt = fin h)
    (h0 : 0 ≤ h) : ∀ c ∈ (compute_stages s).trace, c ∈ s.trace ∨ ∃ a k, Call.time c = s.t + a ∧ val a = fin k ∧ 0 ≤ k ∧ k ≤ h := by
  have hlit : ∀ (m : ℕ) (b : Bool) (e : ℕ), 0 ≤ (OfScientific.ofScientific m b e : ℝ) →
      (OfScientific.ofScientific m b e : ℝ) ≤ 1 →
      ∃ k, val ((OfScientific.ofScientific m b e : F) * s.dt) = fin k ∧ 0 ≤ k ∧ k ≤ h := by
    intro m b e p q
    obtain ⟨c, hc, c0, c1⟩ := L.lit_unit (F := F) m b e p q
    exact L.mul_shrink' hh h0 hc c0 c1
  have h5 : ∃ k, val ((C5 : F) * s.dt) = fin k ∧ 0 ≤ k ∧ k ≤ h := by
    have e8 : val (8.0 : F) = fin 8 := by
      rw [show (8.0 : F) = OfScientific.ofScientific 80 true 1 from rfl, L.lit,
        show (OfScientific.ofScientific 80 true 1 : ℝ) = ((8 : ℕ) : ℝ) by norm_num, L.rnd_nat 8 (by norm_num)]
      norm_num
    have e9 : val (9.0 : F) = fin 9 := by
      rw [show (9.0 : F) = OfScientific.ofScientific 90 true 1 from rfl, L.lit,
        show (OfScientific.ofScientific 90 true 1 : ℝ) = ((9 : ℕ) : ℝ) by norm_num, L.rnd_nat 9 (by norm_num)]
      norm_num
    have : ∃ c, val (C5 : F) = fin c ∧ 0 ≤ c ∧ c ≤ 1 := by
      unfold C5
      rw [L.div _ _ (by rw [e9]; simp), e8, e9, div_fin (by norm_num), round_fin]
      exact L.rnd_mid (by norm_num) (by norm_num) L.rnd_one
    obtain ⟨c, hc, c0, c1⟩ := this
    exact L.mul_shrink' hh h0 hc c0 c1
  intro c hc
  simp only [compute_stages, List.mem_append, List.mem_cons, List.not_mem_nil, or_false] at hc
  obtain hc | rfl | rfl | rfl | rfl | rfl | rfl := hc
  · exact .inl hc
  · obtain ⟨k, hk⟩ := hlit 2 true 1 (by norm_num) (by norm_num); exact .inr ⟨_, k, rfl, hk⟩
  · obtain ⟨k, hk⟩ := hlit 3 true 1 (by norm_num) (by norm_num); exact .inr ⟨_, k, rfl, hk⟩
  · obtain ⟨k, hk⟩ := hlit 8 true 1 (by norm_num) (by norm_num); exact .inr ⟨_, k, rfl, hk⟩
  · obtain ⟨k, hk⟩ := h5; exact .inr ⟨_, k, rfl, hk⟩
  · exact .inr ⟨_, h, rfl, hh, h0, le_rfl⟩
  · exact .inr ⟨_, h, rfl, hh, h0, le_rfl⟩

theorem Rejs.shrinks (L : FloatLaws val rnd) {k : ℕ} (hr : Rejs k s s') (hS : FloatSane s.opts)
    (ht : val s.t = fin t) {h : ℝ} (hh : val s.dt = fin h) (h0 : 0 ≤ h) :
    (∃ h', val s'.dt = fin h' ∧ 0 ≤ h' ∧ h' ≤ h) ∧
    ∀ c ∈ s'.trace, c ∈ s.trace ∨ ∃ a k, Call.time c = s.t + a ∧ val a = fin k ∧ 0 ≤ k ∧ k ≤ h := by
  induction hr generalizing h with
  | zero => exact ⟨⟨h, hh, h0, le_rfl⟩, fun c hc => .inl hc⟩
  | @succ k s s' he _ ih =>
    obtain ⟨k, e, k0, k1⟩ := retry_shrinks L hS he hh h0
    obtain ⟨⟨h', e', h0', h1'⟩, hc⟩ := ih (by simpa using hS) (by simpa using ht) e k0
    refine ⟨⟨h', e', h0', h1'.trans k1⟩, fun c hm => ?_⟩
    obtain hm | ⟨a, x, e1, e2, e3, e4⟩ := hc c hm
    · rw [retry_trace] at hm
      exact stage_times L ht hh h0 c hm
    · exact .inr ⟨a, x, by simpa using e1, e2, e3, e4.trans k1⟩

/-- One step of a forward run with rounding. -/
theorem FloatInv.step (L : FloatLaws val rnd) (hS : FloatSane o) (hl : rnd (tf - t0) ≠ pinf)
    (I : FloatInv val o t0 tf t s) {fuel : ℕ} (h : step fuel s = .ok s') :
    Within s.t s.tfinal s'.t ∧ (∀ c ∈ s'.trace, c ∈ s.trace ∨ Within s.t s.tfinal c.time) ∧
    (Fl.le s'.t s.tfinal = true → ∃ t', FloatInv val o t0 tf t' s') := by
  obtain ⟨k, s1, -, hr, he, -, rfl, sp⟩ := step_spec h
  obtain ⟨h0, e0, B⟩ := I.clamp L hl
  have F0 := Frame.clampLast s
  have F1 := F0.trans hr.frame
  have hS' : FloatSane (DP5.clampLast s).opts := by rw [F0.opts, I.opts]; exact hS
  obtain ⟨⟨h1, e1, b1, b2⟩, hc⟩ := hr.shrinks L hS' (t := t) (by rw [F0.t]; exact I.time) e0 B.1
  have W : ∀ (a : F) (k : ℝ), val a = fin k → 0 ≤ k → k ≤ h0 → Within s.t s.tfinal (s.t + a) := by
    intro a k ha k0 hk
    refine ⟨?_, ?_⟩
    · rw [L.le, I.time]; exact (L.add_mono I.time ha k0).1
    · rw [L.le, L.le, I.tfinal]; exact B.2 a k ha k0 hk
  have ht1 : val s1.t = fin t := by rw [F1.t]; exact I.time
  have et : (finishStep (accepted s1)).t = s.t + s1.dt := by simp [F1.t]
  refine ⟨by rw [et]; exact W _ _ e1 b1 b2, fun c hm => ?_, fun hle => ?_⟩
  · rw [finishStep_trace, accepted_trace] at hm
    obtain hm | ⟨a, x, e2, e3, e4, e5⟩ := stage_times L ht1 e1 b1 c hm
    · obtain hm | ⟨a, x, e2, e3, e4, e5⟩ := hc c hm
      · left
        rwa [(clampLast_stats s).2.2.1] at hm
      · right; rw [e2, F0.t]; exact W a x e3 e4 e5
    · right; rw [e2, F1.t]; exact W a x e3 e4 (e5.trans b2)
  · obtain ⟨w1, -⟩ := W _ _ e1 b1 b2
    rw [et, L.le, I.tfinal] at hle
    rw [L.le, I.time] at w1
    obtain ⟨t', e', g1, g2⟩ := mid_cases w1 hle
    refine ⟨t', by rw [et]; exact e', by rw [sp.tfinal]; exact I.tfinal, I.ge.trans g1, g2,
      by rw [sp.tdir]; exact I.tdir, by rw [sp.opts, I.opts], ?_⟩
    have hS1 : FloatSane s1.opts := by rw [F1.opts, I.opts]; exact hS
    have htd : val s1.tdir = fin 1 := by rw [F1.tdir]; exact I.tdir
    have habs : ∀ a : F, Fl.le (fin 0) (val a) = true → val (Fl.abs a) = val a := by
      intro a ha
      rw [L.abs]
      obtain ⟨y, e, hy⟩ | e := ge_cases ha
      · rw [e, abs_fin, abs_of_nonneg hy]
      · rw [e, abs_pinf]
    have hdiv : Fl.le (fin 0) (val (s1.dt / stepFac s1.opts s1.cache.facold (errOf s1))) = true := by
      refine L.div_nonneg' e1 b1 ?_
      have := hS1.facr
      rw [L.lt_zero_iff] at this
      simp only [stepFac]
      rw [L.max]
      exact lt_max_left' this
    have hmx := hS1.dtmax
    rw [L.le_zero_iff] at hmx
    have hcap : Fl.le (fin 0) (val (if Fl.gt (Fl.abs (s1.dt / stepFac s1.opts s1.cache.facold (errOf s1)))
        s1.opts.dtmax then s1.tdir * s1.opts.dtmax else s1.dt / stepFac s1.opts s1.cache.facold (errOf s1))) = true := by
      split
      · rw [L.mul_one_val htd hmx]; exact hmx
      · exact hdiv
    rw [finishStep_dt, accepted_dt]
    dsimp only
    split
    · have hmin : Fl.le (fin 0) (val (Fl.min (Fl.abs (if Fl.gt (Fl.abs (s1.dt / stepFac s1.opts s1.cache.facold
          (errOf s1))) s1.opts.dtmax then s1.tdir * s1.opts.dtmax else s1.dt / stepFac s1.opts s1.cache.facold
          (errOf s1))) (Fl.abs s1.dt))) = true := by
        rw [L.min, habs _ hcap, habs s1.dt (by rw [e1]; simpa using b1)]
        exact le_min' hcap (.inr (by rw [e1]; simpa using b1))
      rw [L.mul_one_val htd hmin]; exact hmin
    · exact hcap

theorem FloatInv.build (L : FloatLaws val rnd) {b : Builder F n P} (H : ForwardSpan val b)
    (hb : b.build DP5.alg = .ok s) : ∃ t0 tf, val b.t = fin t0 ∧ rnd (tf - t0) ≠ pinf ∧
      FloatInv val b.opts t0 tf t0 s := by
  obtain ⟨t0, e0⟩ := H.t
  obtain ⟨tf, e1⟩ := H.tfinal
  obtain ⟨d, e2⟩ := H.length
  have hlt := H.lt
  rw [L.lt, e0, e1, lt_fin, decide_eq_true_eq] at hlt
  have e3 : val (b.tfinal - b.t) = rnd (tf - t0) := by rw [L.sub, e0, e1, sub_fin, round_fin]
  rw [← Res.ok.inj hb]
  refine ⟨t0, tf, e0, by rw [← e3, e2]; simp, e0, e1, le_rfl, hlt.le, ?_, rfl, ?_⟩
  · change val (Fl.copysign 1.0 (b.tfinal - b.t)) = _
    rw [L.copysign, L.one]
    · simp
    · rw [e3]; exact L.rnd_pos e0 e1 hlt
  · have := H.dt
    rwa [L.le_zero_iff] at this

/-- As long as no recorded time exceeds `tfinal`, the run is in a good state. -/
theorem FloatInv.run (L : FloatLaws val rnd) {b : Builder F n P} (hS : FloatSane b.opts) {s0 : St F n P}
    (hl : rnd (tf - t0) ≠ pinf) (I : FloatInv val b.opts t0 tf t0 s0)
    (hb : b.build DP5.alg = .ok s0) {k : ℕ} (hs : Steps DP5.alg none k s0 s)
    (hin : ∀ x ∈ s.sol.ts, Fl.le x b.tfinal = true) : ∃ t, FloatInv val b.opts t0 tf t s ∧ s.tfinal = b.tfinal := by
  have hf : s0.tfinal = b.tfinal := by rw [← Res.ok.inj hb]
  revert hin
  refine Steps.induct (alg := DP5.alg) (I := fun _ s => (∀ x ∈ s.sol.ts, Fl.le x b.tfinal = true) →
    ∃ t, FloatInv val b.opts t0 tf t s ∧ s.tfinal = b.tfinal) ?_ ?_ hs
  · exact fun _ => ⟨t0, I, hf⟩
  · intro k s o s' ih h1 hin
    obtain ⟨⟨fuel, h1⟩, -⟩ := stepReturns_none_iff.1 h1
    obtain ⟨_, _, _, _, _, _, _, sp⟩ := DP5.step_spec h1
    rw [sp.ts] at hin
    obtain ⟨t, I, ht⟩ := ih fun x hx => hin x (by simp [hx])
    obtain ⟨t', I'⟩ := (I.step L hS hl h1).2.2 (by rw [ht]; exact hin _ (by simp))
    exact ⟨t', I', by rw [sp.tfinal, ht]⟩

end DP5

/-- **C63** With rounding: as long as no recorded time exceeds `tfinal`, the next recorded time and all times at which
the right-hand side is evaluated meanwhile do not lie before the current time `t`, and they lie beyond `tfinal` at most
by the rounding error of `t + (tfinal - t)`. -/
theorem C63_float_step_dp5 (L : FloatLaws val rnd) {b : Builder F n P} (H : ForwardSpan val b)
    (hS : DP5.FloatSane b.opts) {s0 s s' : DP5.St F n P} (hb : b.build DP5.alg = .ok s0) {k : ℕ}
    (hs : Steps DP5.alg none k s0 s) (hin : ∀ x ∈ s.sol.ts, Fl.le x b.tfinal = true) {o : Option ℕ}
    (h : StepReturns DP5.alg none s o s') :
    s'.sol.ts = s.sol.ts ++ [s'.t] ∧ Within s.t b.tfinal s'.t ∧
    ∀ c ∈ s'.trace, c ∈ s.trace ∨ Within s.t b.tfinal c.time := by
  obtain ⟨t0, tf, -, hl, I⟩ := DP5.FloatInv.build L H hb
  obtain ⟨t, I, ht⟩ := DP5.FloatInv.run L hS hl I hb hs hin
  obtain ⟨⟨fuel, h⟩, -⟩ := stepReturns_none_iff.1 h
  obtain ⟨_, _, _, _, _, _, _, sp⟩ := DP5.step_spec h
  obtain ⟨h1, h2, -⟩ := I.step L hS hl h
  rw [ht] at h1 h2
  exact ⟨sp.ts, h1, h2⟩

/-- **C63** If for no time `t` of the span `t + (tfinal - t)` is rounded beyond `tfinal`, then, with rounding, the times
recorded by a forward run never decrease, and all recorded times and all times at which the right-hand side is
evaluated lie in the time span. -/
theorem C63_float_run_dp5 (L : FloatLaws val rnd) {b : Builder F n P} (H : ForwardSpan val b)
    (hS : DP5.FloatSane b.opts)
    (hno : ∀ t, Fl.le b.t t = true → Fl.le t b.tfinal = true → Fl.le (t + (b.tfinal - t)) b.tfinal = true)
    {s0 s : DP5.St F n P} (hb : b.build DP5.alg = .ok s0) {k : ℕ} (hs : Steps DP5.alg none k s0 s) :
    s.sol.ts.Pairwise (fun a c => Fl.le a c = true) ∧
    (∀ x ∈ s.sol.ts, Fl.le b.t x = true ∧ Fl.le x b.tfinal = true) ∧
    ∀ c ∈ s.trace, Fl.le b.t c.time = true ∧ Fl.le c.time b.tfinal = true := by
  obtain ⟨t0, tf, e0, hl, I0⟩ := DP5.FloatInv.build L H hb
  have hf : s0.tfinal = b.tfinal := by rw [← Res.ok.inj hb]
  have ht0 : s0.t = b.t := by rw [← Res.ok.inj hb]
  have htr : ∀ {a c d : F}, Fl.le a c = true → Fl.le c d = true → Fl.le a d = true := by
    intro a c d h1 h2
    rw [L.le] at h1 h2 ⊢
    exact le_trans' h1 h2
  have hself : Fl.le b.t b.t = true := by rw [L.le, e0]; simp
  have hend : Fl.le b.t b.tfinal = true := by rw [L.le, ← ht0, ← hf, I0.time, I0.tfinal]; simpa using I0.le
  have key := Steps.induct (alg := DP5.alg) (s0 := s0) (I := fun _ s => (∃ t, DP5.FloatInv val b.opts t0 tf t s) ∧
    s.tfinal = b.tfinal ∧ s.sol.ts.Pairwise (fun a c => Fl.le a c = true) ∧
    (∀ x ∈ s.sol.ts, Fl.le b.t x = true ∧ Fl.le x s.t = true ∧ Fl.le x b.tfinal = true) ∧
    (Fl.le b.t s.t = true ∧ Fl.le s.t b.tfinal = true) ∧
    ∀ c ∈ s.trace, Fl.le b.t c.time = true ∧ Fl.le c.time b.tfinal = true) ?_ ?_ hs
  · exact ⟨key.2.2.1, fun x hx => ⟨(key.2.2.2.1 x hx).1, (key.2.2.2.1 x hx).2.2⟩, key.2.2.2.2.2⟩
  · have B := DP5.build_fields hb
    refine ⟨⟨t0, I0⟩, hf, by rw [B.1]; simp, ?_, by rw [ht0]; exact ⟨hself, hend⟩, ?_⟩
    · intro x hx
      rw [B.1] at hx
      simp only [List.mem_singleton] at hx
      rw [hx, ht0]; exact ⟨hself, hself, hend⟩
    · rw [B.2.2.2.2.1]
      intro c hc
      simp only [List.mem_singleton] at hc
      rw [hc]; exact ⟨hself, hend⟩
  · rintro k s o s' ⟨⟨t, I⟩, ht, hp, hx, ⟨g1, g2⟩, hc⟩ h1
    obtain ⟨⟨fuel, h1⟩, -⟩ := stepReturns_none_iff.1 h1
    obtain ⟨_, _, _, _, _, _, _, sp⟩ := DP5.step_spec h1
    obtain ⟨w, wc, hI⟩ := I.step L hS hl h1
    rw [ht] at w wc hI
    have ww : ∀ {x : F}, Within s.t b.tfinal x → Fl.le b.t x = true ∧ Fl.le x b.tfinal = true := by
      rintro x ⟨h1, h2 | h2⟩
      · exact ⟨htr g1 h1, h2⟩
      · exact ⟨htr g1 h1, htr h2 (hno _ g1 g2)⟩
    have hs' : Fl.le s'.t s'.t = true := by
      have := w.1
      rw [L.le] at this ⊢
      refine le_refl' fun h => ?_
      rw [h] at this
      cases h : val s.t <;> rw [h] at this <;> simp [Fl.le, leX] at this
    refine ⟨hI (ww w).2, by rw [sp.tfinal, ht], ?_, ?_, ww w, ?_⟩
    · rw [sp.ts, List.pairwise_append]
      refine ⟨hp, by simp, fun x hx' y hy => ?_⟩
      simp only [List.mem_singleton] at hy
      rw [hy]; exact htr (hx x hx').2.1 w.1
    · intro x hx'
      rw [sp.ts, List.mem_append, List.mem_singleton] at hx'
      obtain hx' | rfl := hx'
      · exact ⟨(hx x hx').1, htr (hx x hx').2.1 w.1, (hx x hx').2.2⟩
      · exact ⟨(ww w).1, hs', (ww w).2⟩
    · intro c hc'
      obtain h | h := wc c hc'
      · exact hc c h
      · exact ww h

end Cyphus
