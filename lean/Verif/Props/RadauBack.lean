import Verif.Proofs.RadauBack
import Verif.Props.RadauControl
import Verif.Proofs.RadauSample
/-!
# `Radau5` backwards in time (C82)

Exact arithmetic with special values. Nothing is assumed about the right-hand side and the Jacobian, their values may
be NaN or infinite.
-/

namespace Cyphus
open X
set_option linter.unusedSectionVars false
set_option autoImplicit false
noncomputable section
variable {n : ℕ} {P : Type} {C : Radau.Clock} {b : Builder X n P} {s0 : Radau.St X n P}

namespace Radau

theorem Idle.unf {fwd : Prop} {s : St X n P} {t h : ℝ} (H : Idle C fwd s t h) : Idle C False s t h :=
  ⟨H.1, H.2, H.3, H.4, H.5, H.6.imp fun _ h => ⟨h.1, False.elim⟩, H.7, H.8, False.elim, False.elim, False.elim, False.elim⟩

theorem Ctl.proposal_neg {o : Opts X} (H : Ctl C o) (hd : C.d = -1) (rej : Bool) (h q : ℝ) :
    C.proposal rej h q ≤ 0 := by
  have h1 := H.cap_nonneg (h / q)
  unfold Clock.proposal
  simp only [hd]
  split
  · have : 0 ≤ min |-1 * capR C.mx (h / q)| |h| := by positivity
    linarith
  · linarith

/-- After an accepted step of a backward run the next step is backward and stays in the interval. -/
theorem Clock.Next.back {t h x h' : ℝ} (hn : C.Next t h x h') (hd : C.d = -1) (hq : C.q1 = 1) (hx : x ≤ 0)
    (ht : C.tf ≤ t) : h' ≤ 0 ∧ C.tf ≤ t + h' := by
  cases hn with
  | toEnd => constructor <;> linarith
  | keep h1 h2 _ =>
    rw [hd, hq, div_one] at h1
    rw [hq] at h2
    have hh : h < 0 := by
      by_contra hh
      have := div_nonpos_of_nonpos_of_nonneg hx (not_lt.1 hh)
      linarith
    rw [le_div_iff_of_neg hh] at h2
    constructor <;> linarith
  | change h1 =>
    rw [hd, hq, div_one] at h1
    constructor <;> linarith

/-- The times at which a backward run may start with the right step. -/
def Clock.Above (C : Clock) : Prop := 0 ≤ C.t0 + C.tf + 1.0001e-6

/-- The latest time of a backward run. -/
def Clock.top (C : Clock) : ℝ := by classical exact if C.Above then C.t0 else C.t0 + 1e-6

structure Down (C : Clock) (l : List ℝ) (t : ℝ) : Prop where
  desc : l.Pairwise (· > ·)
  last : ∀ x ∈ l, t ≤ x
  lo : C.tf ≤ t
  hi : t ≤ C.top
  right : C.Above → ∀ x ∈ l, x < C.t0
  wrong : ¬ C.Above → ∀ x ∈ l.head?, C.t0 < x ∧ x ≤ C.t0 + 1e-6

/-- The interval in which user code is called. -/
def Clock.turned (C : Clock) : Clock := { C with t0 := C.tf, tf := C.top }

/-- During a backward run. -/
def Backing (C : Clock) (s : St X n P) : Prop :=
  Ready s ∧ InSpan C.turned s ∧ ∃ (l : List ℝ) (t h : ℝ), Idle C False s t h ∧ s.sol.ts = (C.t0 :: l).map fin ∧
    ((l = [] ∧ t = C.t0 ∧ h = 1e-6) ∨ (l ≠ [] ∧ h ≤ 0 ∧ C.tf ≤ t + h ∧ Down C l t))

/-- The record of a backward run. -/
def Backed (C : Clock) (s : St X n P) : Prop :=
  InSpan C.turned s ∧ ∃ (l : List ℝ), s.sol.ts = (C.t0 :: l).map fin ∧ (l = [] ∨ ∃ t, Down C l t)

theorem Backing.record {s : St X n P} (H : Backing C s) : Backed C s := by
  obtain ⟨-, h1, l, t, h, -, h2, ⟨h3, -⟩ | ⟨-, -, -, h3⟩⟩ := H
  · exact ⟨h1, l, h2, .inl h3⟩
  · exact ⟨h1, l, h2, .inr ⟨t, h3⟩⟩

theorem Clock.le_top (C : Clock) : C.t0 ≤ C.top := by
  unfold Clock.top
  split
  · exact le_rfl
  · norm_num

theorem Backing.step {s s' : St X n P} {fuel : ℕ} (hS : C.Sane) (hq : C.q1 = 1) (ht : C.tf < C.t0) (H : Backing C s)
    (hst : Radau.step fuel s = .ok s') : Backed C s' ∧ (s'.sol.retcode = .Continue → Backing C s') := by
  obtain ⟨hr, hsp, l, t, h, hI, hts, hp⟩ := H
  have hd : C.d = -1 := by unfold Clock.d; rw [if_neg (by linarith)]
  have hT := C.le_top
  have key : C.tf ≤ t ∧ t ≤ C.top ∧ C.tf ≤ t + C.tried t h ∧ t + C.tried t h ≤ C.top ∧
      ∀ y, 0 < y → y ≤ 1 → C.tried t h * y ≠ 0 → Down C (l ++ [t + C.tried t h * y]) (t + C.tried t h * y) := by
    unfold Clock.tried
    rw [hd]
    obtain ⟨rfl, rfl, rfl⟩ | ⟨hl, h0, h1, D⟩ := hp
    · by_cases hA : C.Above
      · have e : C.top = C.t0 := by unfold Clock.top; rw [if_pos hA]
        rw [if_pos (by unfold Clock.Above at hA; norm_num at hA ⊢; linarith), e]
        refine ⟨ht.le, le_rfl, by linarith, by linarith, fun y y0 y1 _ => ?_⟩
        have g1 : (C.tf - C.t0) * y < 0 := mul_neg_of_neg_of_pos (by linarith) y0
        have g2 : C.tf ≤ C.t0 + (C.tf - C.t0) * y := by nlinarith
        exact ⟨by simp, by simp, g2, by rw [e]; linarith, fun _ => by simp; exact g1, fun h => absurd hA h⟩
      · have e : C.top = C.t0 + 1e-6 := by unfold Clock.top; rw [if_neg hA]
        rw [if_neg (by unfold Clock.Above at hA; norm_num at hA ⊢; linarith), e]
        refine ⟨ht.le, by norm_num, by norm_num; linarith, le_rfl, fun y y0 y1 _ => ?_⟩
        have g1 : (0 : ℝ) < 1e-6 * y := by positivity
        have g2 : (1e-6 : ℝ) * y ≤ 1e-6 := mul_le_of_le_one_right (by norm_num) y1
        exact ⟨by simp, by simp, by linarith, by rw [e]; linarith, fun h => absurd h hA,
          fun _ x hx => by
            simp only [List.nil_append, List.head?_cons, Option.mem_def, Option.some.injEq] at hx
            subst hx; constructor <;> linarith⟩
    · have hlo := D.lo
      have hhi := D.hi
      have fst : (if 0 ≤ t + h * 1.0001 - C.tf * -1 then C.tf - t else h) ≤ 0 ∧
          C.tf ≤ t + (if 0 ≤ t + h * 1.0001 - C.tf * -1 then C.tf - t else h) := by
        split
        · constructor <;> linarith
        · exact ⟨h0, h1⟩
      generalize (if 0 ≤ t + h * 1.0001 - C.tf * -1 then C.tf - t else h) = H0 at fst
      obtain ⟨f1, f2⟩ := fst
      refine ⟨hlo, hhi, f2, by linarith, fun y y0 y1 hne => ?_⟩
      have g0 : H0 * y ≤ 0 := mul_nonpos_of_nonpos_of_nonneg f1 y0.le
      have g1 : H0 * y < 0 := lt_of_le_of_ne g0 hne
      have g2 : C.tf ≤ t + H0 * y := by nlinarith
      refine ⟨?_, ?_, g2, by linarith, fun hA x hx => ?_, fun hA x hx => ?_⟩
      · rw [List.pairwise_append]
        refine ⟨D.desc, by simp, fun x hx y hy => ?_⟩
        simp only [List.mem_singleton] at hy
        have := D.last x hx
        subst hy
        show _ < _
        linarith
      · intro x hx
        rcases List.mem_append.1 hx with hx | hx
        · linarith [D.last x hx]
        · simp only [List.mem_singleton] at hx
          exact hx.ge
      · rcases List.mem_append.1 hx with hx | hx
        · exact D.right hA x hx
        · simp only [List.mem_singleton] at hx
          have e : C.top = C.t0 := by unfold Clock.top; rw [if_pos hA]
          rw [hx]; linarith
      · obtain ⟨a, l', rfl⟩ := List.exists_cons_of_ne_nil hl
        exact D.wrong hA x hx
  obtain ⟨k1, k2, k3, k4, k5⟩ := key
  have hsp' : InSpan C.turned s' := hI.span_step hS hr (D := C.turned) ⟨k1, k2, k3, k4⟩ hsp hst
  obtain ⟨hfr, ha | hf⟩ := Radau.step_cases hr hst
  · obtain ⟨y, h', y0, y1, T⟩ | hc := hI.seg_step hS hr hst
    · have D := k5 y y0 y1 T.ne
      have ets : s'.sol.ts = (C.t0 :: (l ++ [t + C.tried t h * y])).map fin := by
        rw [ha.ts, hts, T.idle.time]; simp
      refine ⟨⟨hsp', _, ets, .inr ⟨_, D⟩⟩, fun hc => ⟨hr.step hst hc, hsp', _, _, h', T.idle, ets, .inr ?_⟩⟩
      obtain ⟨q, rej, -, -, -, hn⟩ := T.next hc
      obtain ⟨b1, b2⟩ := hn.back hd hq (T.idle.ctl.proposal_neg hd _ _ _) D.lo
      exact ⟨by simp, b1, b2, D⟩
    · have := ha.retcode
      obtain h7 | h7 := this
      · exact absurd h7 hc.1
      · exact absurd h7 hc.2
  · refine ⟨⟨hsp', l, hf.frame.ts ▸ hts, ?_⟩, fun hc => ?_⟩
    swap
    · obtain h | h | h := hf.retcode <;> rw [hc] at h <;> simp at h
    obtain ⟨h3, -⟩ | ⟨-, -, -, h3⟩ := hp
    · exact .inl h3
    · exact .inr ⟨t, h3⟩

theorem Timed.backing (H : Timed C b) (ht : C.tf < C.t0) (hb : b.build alg = .ok s0) : Backing C s0 := by
  obtain ⟨h1, -, -, -, -, -, h7, -⟩ := build_fields hb
  refine ⟨build_ready hb, ?_, [], C.t0, 1e-6, (H.idle hb).unf, by rw [h1, H.t]; rfl, .inl ⟨rfl, rfl, rfl⟩⟩
  have e : s0.trace = Call.rhs b.t b.u :: (jacobian_u b.dudt b.dfdu (fun _ _ => 0.0) b.u b.t b.params).2 := by
    rw [← Res.ok.inj hb]
  intro c hc
  rw [e] at hc
  rcases List.mem_cons.1 hc with rfl | hc
  · exact ⟨_, H.t, ht.le, C.le_top⟩
  · exact ⟨_, (jacobian_u_time _ _ _ _ _ _ c hc).trans H.t, ht.le, C.le_top⟩

theorem Timed.backed (H : Timed C b) (hS : C.Sane) (hq : C.q1 = 1) (ht : C.tf < C.t0) (hb : b.build alg = .ok s0)
    {s : St X n P} (hs : (∃ k, SomeSteps alg none k s0 s) ∨ IntegrateReturns alg none s0 s) : Backed C s := by
  have some : ∀ {k : ℕ} {s : St X n P}, SomeSteps alg none k s0 s → Backing C s := by
    intro k s hs
    refine SomeSteps.induct (alg := alg) (I := fun _ s => Backing C s) (H.backing ht hb) ?_ hs
    rintro k s o s' hB h1
    obtain ⟨⟨fuel, h1⟩, ho⟩ := stepReturns_none_iff.1 h1
    have hc : s'.sol.retcode = .Continue := by
      by_contra hc
      simp [hc] at ho
    exact (hB.step hS hq ht h1).2 hc
  rcases hs with ⟨k, hs⟩ | hs
  · exact (some hs).record
  · obtain ⟨k, s1, h1, h2⟩ := (integrate_iff fuelMono).1 hs
    obtain ⟨⟨fuel, h2⟩, -⟩ := stepReturns_none_iff.1 h2
    exact ((some h1).step hS hq ht h2).1

end Radau

/-- **C82** A backward run (`tfinal < t0`) with sane options and `quot1 = 1`, where `t0 + tfinal` is not below
`-1.0001e-6` (for example because no time is negative), goes the right way: the recorded times decrease strictly and
lie in `[tfinal, t0]`, and the right-hand side and the Jacobian are called at times in `[tfinal, t0]` only. -/
theorem C82_backward_radau (H : Radau.Timed C b) (hS : C.Sane) (hq : C.q1 = 1) (ht : C.tf < C.t0)
    (ha : 0 ≤ C.t0 + C.tf + 1.0001e-6) (hb : b.build Radau.alg = .ok s0) {s : Radau.St X n P}
    (hs : (∃ k, SomeSteps Radau.alg none k s0 s) ∨ IntegrateReturns Radau.alg none s0 s) :
    (∃ l : List ℝ, s.sol.ts = l.map fin ∧ l.Pairwise (· > ·) ∧ ∀ t ∈ l, C.tf ≤ t ∧ t ≤ C.t0) ∧
      ∀ c ∈ s.trace, ∃ t, c.time = fin t ∧ C.tf ≤ t ∧ t ≤ C.t0 := by
  obtain ⟨h1, l, h2, h3⟩ := H.backed hS hq ht hb hs
  have e : C.top = C.t0 := by unfold Radau.Clock.top; rw [if_pos (by exact ha)]
  refine ⟨⟨C.t0 :: l, h2, ?_⟩, fun c hc => ?_⟩
  · obtain rfl | ⟨t, D⟩ := h3
    · simp [ht.le]
    · have D' := D.right ha
      refine ⟨List.pairwise_cons.2 ⟨fun x hx => D' x hx, D.desc⟩, fun x hx => ?_⟩
      rcases List.mem_cons.1 hx with rfl | hx
      · exact ⟨ht.le, le_rfl⟩
      · exact ⟨D.lo.trans (D.last x hx), (D' x hx).le⟩
  · have := h1 c hc
    rw [show C.turned = { C with t0 := C.tf, tf := C.top } from rfl, e] at this
    exact this

/-- **C82** If `t0 + tfinal` is below `-1.0001e-6`, a backward run starts the wrong way: the first step accepted leads
to a time in `(t0, t0 + 1e-6]`, which is not in the interval. From there on the recorded times decrease strictly,
down to `tfinal` at most. User code is called at times in `[tfinal, t0 + 1e-6]` only. -/
theorem C82_wrong_way_radau (H : Radau.Timed C b) (hS : C.Sane) (hq : C.q1 = 1) (ht : C.tf < C.t0)
    (ha : C.t0 + C.tf + 1.0001e-6 < 0) (hb : b.build Radau.alg = .ok s0) {s : Radau.St X n P}
    (hs : (∃ k, SomeSteps Radau.alg none k s0 s) ∨ IntegrateReturns Radau.alg none s0 s) :
    (∃ l : List ℝ, s.sol.ts = (C.t0 :: l).map fin ∧ (∀ t ∈ l.head?, C.t0 < t ∧ t ≤ C.t0 + 1e-6) ∧
      l.Pairwise (· > ·) ∧ ∀ t ∈ l, C.tf ≤ t) ∧
      ∀ c ∈ s.trace, ∃ t, c.time = fin t ∧ C.tf ≤ t ∧ t ≤ C.t0 + 1e-6 := by
  obtain ⟨h1, l, h2, h3⟩ := H.backed hS hq ht hb hs
  have hA : ¬ C.Above := not_le.2 ha
  have e : C.top = C.t0 + 1e-6 := by unfold Radau.Clock.top; rw [if_neg hA]
  refine ⟨⟨l, h2, ?_⟩, fun c hc => ?_⟩
  · obtain rfl | ⟨t, D⟩ := h3
    · simp
    · exact ⟨D.wrong hA, D.desc, fun x hx => D.lo.trans (D.last x hx)⟩
  · have := h1 c hc
    rw [show C.turned = { C with t0 := C.tf, tf := C.top } from rfl, e] at this
    exact this

/-! ### Cases that meet the hypotheses -/

/-- The first step of `u' = v` with default options, if it is tried with size `h`. -/
theorem const_first_radau (hn : n ≠ 0) (v u0 : Fin n → ℝ) (hv : ∀ i, |v i| ≤ 1) {t0 tf h : ℝ}
    (hh : (Radau.defaultClock t0 tf none).tried t0 1e-6 = h) (hsm : |t0| * 1e-3 < 0.1 * |h|) (h1 : |h| ≤ 10) :
    ∃ s0 s1 : Radau.St X n Unit, (Radau.constBuilder v u0 t0 tf).build Radau.alg = .ok s0 ∧
      Radau.step 1 s0 = .ok s1 ∧ s1.t = fin (t0 + h) ∧ s1.sol.ts = [fin t0, fin (t0 + h)] ∧ s1.stats.steps = 1 ∧
      (s1.sol.retcode = .Continue ∨ s1.sol.retcode = .Success) ∧
      (0 ≤ t0 + 1e-6 * 1.0001 - tf * (Radau.defaultClock t0 tf none).d → s1.sol.retcode = .Success) := by
  obtain ⟨s0, hb⟩ : ∃ s0 : Radau.St X n Unit, (Radau.constBuilder v u0 t0 tf).build Radau.alg = .ok s0 := ⟨_, rfl⟩
  have T := Radau.const_timed v u0 t0 tf
  obtain ⟨φ, Q⟩ := Radau.quad_build (Radau.const_problem v u0 t0 tf) T (Radau.const_tol _ _ _ _)
    (by change 3 ≤ 7; norm_num) hb
  have I := T.idle hb
  have hst : s0.stats.steps = 0 := by rw [← Res.ok.inj hb]; rfl
  have hms : s0.opts.max_steps = 100000 := by rw [← Res.ok.inj hb]; rfl
  have hdec : s0.cache.decompose = true := by rw [← Res.ok.inj hb]
  have hdt : (Radau.clampLast s0).dt = fin h := by
    have K := I.unf.seg' Q.ready.retcode
    rw [← hh]
    exact K.step
  have he := Radau.eps_small
  have h0 : h ≠ 0 := by
    rintro rfl
    have := abs_nonneg t0
    norm_num at hsm
    linarith
  obtain ⟨d, s1, S⟩ := Q.go (h := h) (hf := h) hn (fun _ _ => rfl) (fun _ _ => rfl) (by rw [hst, hms]; norm_num) hdt
    (lt_of_le_of_lt (mul_le_mul_of_nonneg_left he (abs_nonneg _)) hsm) (fun _ => rfl)
    (fun h => by rw [hdec] at h; simp at h)
    (lt_of_le_of_lt (Radau.scaledNorm_le hn (by norm_num) (by norm_num) (c := 1e-6) (by norm_num) fun i =>
      (Radau.const_err t0 h0 i).trans (by
        rw [div_self h0, sub_self, abs_zero, abs_one]
        have h2 := hv i
        have h3 : |h| / 3 * |v i| ≤ 10 / 3 * 1 := by gcongr
        norm_num at h3 ⊢
        linarith)) (by norm_num))
  have e0 : s0.sol.ts = [fin t0] := (Radau.build_fields hb).1
  refine ⟨s0, s1, hb, S.step, S.time, ?_, by rw [S.steps, hst], ?_, fun hc => ?_⟩
  · obtain ⟨-, ha | hf⟩ := Radau.step_cases Q.ready S.step
    · rw [ha.ts, e0, S.time]; rfl
    · have := hf.retcode
      rw [S.code] at this
      split at this <;> simp at this
  · rw [S.code]
    split <;> simp
  · have : (Radau.clampLast s0).cache.last = true := by
      unfold Radau.clampLast
      rw [I.time, I.step, I.tfinal, I.tdir, show (1.0001 : X) = fin 1.0001 from rfl, show (0.0 : X) = fin 0.0 from rfl,
        mul_fin, mul_fin, add_fin, sub_fin, ge_fin, if_pos]
      rw [decide_eq_true_eq, show (0.0 : ℝ) = 0 by norm_num]
      exact hc
    rw [S.code, this]; rfl

/-- For `C82_backward_radau`: `u' = v` from `1` to `0` with default options. The first step is the whole interval. -/
example : ∃ (C : Radau.Clock) (b : Builder X 2 Unit) (s0 s : Radau.St X 2 Unit), Radau.Timed C b ∧ C.Sane ∧ C.q1 = 1 ∧
    C.tf < C.t0 ∧ 0 ≤ C.t0 + C.tf + 1.0001e-6 ∧ b.build Radau.alg = .ok s0 ∧
    IntegrateReturns Radau.alg none s0 s ∧ s.sol.ts = [fin 1, fin 0] := by
  have hd : (Radau.defaultClock 1 0 none).d = -1 := by
    unfold Radau.Clock.d; rw [if_neg (by norm_num [Radau.defaultClock])]
  obtain ⟨s0, s1, hb, hs, ht, hts, hst, hc⟩ := const_first_radau two_ne_zero ![1, -1] ![0, 3]
    (by simp [Fin.forall_fin_two]) (t0 := 1) (tf := 0) (h := -1)
    (by
      unfold Radau.Clock.tried
      rw [hd, if_pos (by norm_num [Radau.defaultClock])]
      norm_num [Radau.defaultClock]) (by norm_num) (by norm_num)
  have T := Radau.const_timed ![1, -1] ![0, 3] 1 0
  have hS := Radau.defaultClock_sane 1 0 none
  refine ⟨_, _, s0, s1, T, hS, by norm_num [Radau.defaultClock], by norm_num [Radau.defaultClock],
    by norm_num [Radau.defaultClock], hb, ?_, by rw [hts]; norm_num⟩
  have hc : s1.sol.retcode = .Success := hc.2 (by rw [hd]; norm_num)
  refine (integrate_iff Radau.fuelMono).2 ⟨0, s0, .zero (alg := Radau.alg) s0, stepReturns_none_iff.2 ⟨⟨1, hs⟩, ?_⟩⟩
  rw [hc]; rfl

/-- For `C82_wrong_way_radau`: `u' = v` from `0` to `-1` with default options. The first step ends at `1e-6`. -/
example : ∃ (C : Radau.Clock) (b : Builder X 2 Unit) (s0 s : Radau.St X 2 Unit), Radau.Timed C b ∧ C.Sane ∧ C.q1 = 1 ∧
    C.tf < C.t0 ∧ C.t0 + C.tf + 1.0001e-6 < 0 ∧ b.build Radau.alg = .ok s0 ∧
    SomeSteps Radau.alg none 1 s0 s ∧ s.sol.ts = [fin 0, fin 1e-6] := by
  have hd : (Radau.defaultClock 0 (-1) none).d = -1 := by
    unfold Radau.Clock.d; rw [if_neg (by norm_num [Radau.defaultClock])]
  obtain ⟨s0, s1, hb, hs, ht, hts, hst, hc⟩ := const_first_radau two_ne_zero ![1, -1] ![0, 3]
    (by simp [Fin.forall_fin_two]) (t0 := 0) (tf := -1) (h := 1e-6)
    (by
      unfold Radau.Clock.tried
      rw [hd, if_neg (by norm_num [Radau.defaultClock])]) (by norm_num) (by norm_num [abs_of_pos])
  have T := Radau.const_timed ![1, -1] ![0, 3] 0 (-1)
  have hS := Radau.defaultClock_sane 0 (-1) none
  refine ⟨_, _, s0, s1, T, hS, by norm_num [Radau.defaultClock], by norm_num [Radau.defaultClock],
    by norm_num [Radau.defaultClock], hb, ?_, by rw [hts]; norm_num⟩
  have hc : s1.sol.retcode = .Continue := by
    rcases hc.1 with hc | hc
    · exact hc
    · have := C25_success_radau T hb (s := s1) ((integrate_iff Radau.fuelMono).2
        ⟨0, s0, .zero (alg := Radau.alg) s0, stepReturns_none_iff.2 ⟨⟨1, hs⟩, by rw [hc]; rfl⟩⟩) hc
      rw [ht, fin_inj] at this
      norm_num [Radau.defaultClock] at this
  refine .succ (alg := Radau.alg) (.zero (alg := Radau.alg) s0) (i := 1) (stepReturns_none_iff.2 ⟨⟨1, hs⟩, ?_⟩)
  rw [hc, hst]; rfl

end
end Cyphus
