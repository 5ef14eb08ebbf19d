import Verif.Proofs.DP5Term
import Verif.Props.Run
/-!
# Properties of `DormandPrince5` runs in exact arithmetic

`DP5.Problem E b t0 u0` (file `Verif/Spec/Problem.lean`) says that the builder `b` describes the initial value
problem `u' = E.f t u`, `u(t0) = u0` on `[t0, E.tf]` with finite positive options. `E.Sane` holds for the default
options.
-/

namespace Cyphus
open X
set_option linter.unusedSectionVars false
set_option autoImplicit false
noncomputable section
variable {n : ℕ} {P : Type} {E : DP5.Env n} {b : Builder X n P} {t0 : ℝ} {u0 : Fin n → ℝ}
  {s0 : DP5.St X n P}

theorem DP5.default_sane (f : ℝ → (Fin n → ℝ) → Fin n → ℝ) (t0 tf : ℝ) :
    (DP5.defaultEnv f t0 tf).Sane where
  safe := by norm_num [DP5.defaultEnv]
  facl := by norm_num [DP5.defaultEnv]
  expo := by
    simp only [DP5.expo, DP5.defaultEnv]
    have h1 : (0.04 : ℝ) ^ (0.75 : ℝ) ≤ (0.2 : ℝ) := by
      have e : (0.04 : ℝ) = (0.2 : ℝ) ^ (2 : ℝ) := by norm_num
      rw [e, ← Real.rpow_mul (by norm_num)]
      have : (0.2 : ℝ) ^ (2 * 0.75 : ℝ) ≤ (0.2 : ℝ) ^ (1 : ℝ) :=
        Real.rpow_le_rpow_of_exponent_ge (by norm_num) (by norm_num) (by norm_num)
      simpa using this
    linarith

/-! ### C13: termination -/

/-- **C13** In every state a run can reach, `step()` returns if the right-hand side is bounded near the
current point. -/
theorem C13_step_returns_dp5 (H : DP5.Problem E b t0 u0) (hS : E.Sane) (h1 : E.sf < 1) (h2 : E.fl < 1)
    (hb : b.build DP5.alg = .ok s0) {k : ℕ} {s : DP5.St X n P} (hs : Steps DP5.alg none k s0 s)
    (hf : ∀ t u, s.t = fin t → s.u = fv u → LocallyBounded E.f t u) :
    ∃ o s', StepReturns DP5.alg none s o s' := by
  obtain ⟨t, u, h, G⟩ := H.good hb hs
  obtain ⟨fuel, s', h3⟩ := G.returns hS h1 h2 (hf t u G.num.t G.num.u)
  exact ⟨_, s', stepReturns_none_iff.2 ⟨⟨fuel, h3⟩, rfl⟩⟩

/-- **C13** If the right-hand side is locally bounded everywhere, `integrate()` returns. -/
theorem C13_integrate_returns_dp5 (H : DP5.Problem E b t0 u0) (hS : E.Sane) (h1 : E.sf < 1) (h2 : E.fl < 1)
    (hf : ∀ t u, LocallyBounded E.f t u) (hb : b.build DP5.alg = .ok s0) :
    ∃ s, IntegrateReturns DP5.alg none s0 s := by
  by_contra hcon
  have key : ∀ k, ∃ s, SomeSteps DP5.alg none k s0 s := by
    intro k
    induction k with
    | zero => exact ⟨s0, .zero _⟩
    | succ k ih =>
      obtain ⟨s, hs⟩ := ih
      obtain ⟨o, s', h3⟩ := C13_step_returns_dp5 H hS h1 h2 hb hs.steps fun t u _ _ => hf t u
      cases o with
      | some i => exact ⟨s', .succ hs h3⟩
      | none => exact absurd ⟨s', (integrate_iff DP5.fuelMono).2 ⟨k, s, hs, h3⟩⟩ hcon
  obtain ⟨s, hs⟩ := key (b.opts.max_steps + 1)
  have := (C11_max_steps_dp5 hb).1 _ s hs
  omega

/-- With default options `integrate()` returns for `u' = u^2` (whose solution blows up). -/
example : ∃ s0 s : DP5.St X 1 Unit, (Builder.default DP5.alg (fun _ _ u _ => fun i => u i * u i) (fv fun _ => 1)
    (fin 0, fin 2) ()).build DP5.alg = .ok s0 ∧ IntegrateReturns DP5.alg none s0 s := by
  obtain ⟨s0, hb⟩ : ∃ s0 : DP5.St X 1 Unit, (Builder.default DP5.alg (fun _ _ u _ => fun i => u i * u i)
    (fv fun _ => 1) (fin 0, fin 2) ()).build DP5.alg = .ok s0 := ⟨_, rfl⟩
  have H := DP5.default_problem (P := Unit) one_ne_zero (dudt := fun _ _ u _ => fun i => u i * u i) (p := ())
    (f := fun _ u i => u i * u i) (fun _ _ _ => rfl) 0 2 (fun _ => 1)
  obtain ⟨s, hs⟩ := C13_integrate_returns_dp5 H (DP5.default_sane _ _ _) (by norm_num [DP5.defaultEnv])
    (by norm_num [DP5.defaultEnv]) (fun t u => by
      refine ⟨1, one_pos, (|u 0| + 1) ^ 2, fun t' u' _ hu i => ?_⟩
      have h1 : |u' i| ≤ |u 0| + 1 := by
        have h2 := hu i
        have : i = 0 := Subsingleton.elim _ _
        subst this
        have := abs_sub_abs_le_abs_sub (u' 0) (u 0)
        linarith
      change |u' i * u' i| ≤ _
      rw [abs_mul, sq]
      exact mul_self_le_mul_self (abs_nonneg _) h1) hb
  exact ⟨s0, s, hb, hs⟩

/-! ### C15, C16: every recorded step is an accepted Dormand-Prince step -/

/-- **C15** Consecutive recorded points are related by a step of the published Dormand-Prince method. -/
theorem C15_recorded_steps_dp5 (H : DP5.Problem E b t0 u0) (hb : b.build DP5.alg = .ok s0) {k : ℕ}
    {s : DP5.St X n P} (hs : Steps DP5.alg none k s0 s) :
    ∃ l, Recorded s.sol l ∧ l.head? = some (t0, u0) ∧ l.length = k + 1 ∧
      l.IsChain fun p q => ∃ h, q.1 = p.1 + h ∧ Spec.IsStep Spec.dopri5 E.f p.1 p.2 h q.2 := by
  obtain ⟨l, h1, h2, h3, h4⟩ := H.chain hb hs
    (fun p q => ∃ h, q.1 = p.1 + h ∧ Spec.IsStep Spec.dopri5 E.f p.1 p.2 h q.2)
    fun t u h _ => ⟨h, rfl, (DP5.isStep_iff E.f t u h _).2 rfl⟩
  exact ⟨l, h1, h2, h4, h3⟩

/-- **C16** Each of these steps has an error estimate (difference to the embedded method, in the scaled norm) of
at most one. -/
theorem C16_recorded_errors_dp5 (H : DP5.Problem E b t0 u0) (hb : b.build DP5.alg = .ok s0) {k : ℕ}
    {s : DP5.St X n P} (hs : Steps DP5.alg none k s0 s) :
    ∃ l, Recorded s.sol l ∧ l.head? = some (t0, u0) ∧ l.length = k + 1 ∧
      l.IsChain fun p q => ∃ h e, q.1 = p.1 + h ∧ Spec.IsStep Spec.dopri5 E.f p.1 p.2 h q.2 ∧
        Spec.IsErr Spec.dopri5 E.f p.1 p.2 h e ∧ Spec.errNorm E.a E.r p.2 q.2 e ≤ 1 := by
  obtain ⟨l, h1, h2, h3, h4⟩ := H.chain hb hs
    (fun p q => ∃ h e, q.1 = p.1 + h ∧ Spec.IsStep Spec.dopri5 E.f p.1 p.2 h q.2 ∧
        Spec.IsErr Spec.dopri5 E.f p.1 p.2 h e ∧ Spec.errNorm E.a E.r p.2 q.2 e ≤ 1)
    fun t u h he => ⟨h, _, rfl, (DP5.isStep_iff E.f t u h _).2 rfl, (DP5.isErr_iff E.f t u h _).2 rfl, he⟩
  exact ⟨l, h1, h2, h4, h3⟩

/-- The stages and results of a Dormand-Prince step are unique, so C15 and C16 determine the points from the step
sizes. -/
theorem C15_step_unique (f : ℝ → (Fin n → ℝ) → Fin n → ℝ) (t : ℝ) (u : Fin n → ℝ) (h : ℝ) :
    (∃! u', Spec.IsStep Spec.dopri5 f t u h u') ∧ (∃! e, Spec.IsErr Spec.dopri5 f t u h e) :=
  ⟨⟨_, (DP5.isStep_iff f t u h _).2 rfl, fun y hy => (DP5.isStep_iff f t u h y).1 hy⟩,
   ⟨_, (DP5.isErr_iff f t u h _).2 rfl, fun y hy => (DP5.isErr_iff f t u h y).1 hy⟩⟩

/-- The sample problem (two steps) satisfies the hypotheses. -/
example : ∃ (E : DP5.Env 1) (b : Builder X 1 Unit) (s0 s : DP5.St X 1 Unit), DP5.Problem E b 0 (fun _ => 0) ∧
    E.Sane ∧ b.build DP5.alg = .ok s0 ∧ Steps DP5.alg none 2 s0 s := by
  obtain ⟨s0, s1, s2, hb, h1, h2, -⟩ := DP5.sample_run
  exact ⟨_, _, s0, s2, DP5.sample_problem 1.1e-6, DP5.default_sane _ _ _, hb, .succ (.succ (.zero _) h1) h2⟩

/-! ### C21, C22: invariants of the flow -/

theorem List.IsChain.all_eq {α β : Type} {g : α → β} {l : List α}
    (h : l.IsChain fun p q => g q = g p) : ∀ {a : α}, l.head? = some a → ∀ x ∈ l, g x = g a := by
  induction l with
  | nil => simp
  | cons y l ih =>
    intro a ha x hx
    simp at ha
    subst ha
    rcases List.mem_cons.1 hx with rfl | hx
    · rfl
    · cases l with
      | nil => simp at hx
      | cons z l =>
        rw [List.isChain_cons_cons] at h
        rw [ih h.2 (a := z) rfl x hx, h.1]

/-- **C21** A linear functional that vanishes on the right-hand side has the same value at all recorded
points. -/
theorem C21_linear_invariants_dp5 (H : DP5.Problem E b t0 u0) (hb : b.build DP5.alg = .ok s0) {k : ℕ}
    {s : DP5.St X n P} (hs : Steps DP5.alg none k s0 s) (w : Fin n → ℝ)
    (hw : ∀ t u, ∑ i, w i * E.f t u i = 0) :
    ∃ l, Recorded s.sol l ∧ l.length = k + 1 ∧ ∀ p ∈ l, ∑ i, w i * p.2 i = ∑ i, w i * u0 i := by
  obtain ⟨l, h1, h2, h3, h4⟩ := H.chain hb hs (fun p q => ∑ i, w i * q.2 i = ∑ i, w i * p.2 i) fun t u h _ => by
    have e : ∀ i, w i * E.next t u h i = w i * u i + h * (DP5.A71 * (w i * DP5.K1 E.f t u i) +
        DP5.A73 * (w i * DP5.K3 E.f t u h i) + DP5.A74 * (w i * DP5.K4 E.f t u h i) +
        DP5.A75 * (w i * DP5.K5 E.f t u h i) + DP5.A76 * (w i * DP5.K6 E.f t u h i)) := by
      intro i; simp only [DP5.Env.next, DP5.unewR]; ring
    have z : ∀ K : Fin n → ℝ, (∃ t u, K = E.f t u) → ∑ i, w i * K i = 0 := by
      rintro K ⟨t, u, rfl⟩; exact hw t u
    simp only [e, Finset.sum_add_distrib, ← Finset.mul_sum]
    rw [z (DP5.K1 E.f t u) ⟨_, _, rfl⟩, z (DP5.K3 E.f t u h) ⟨_, _, rfl⟩, z (DP5.K4 E.f t u h) ⟨_, _, rfl⟩,
      z (DP5.K5 E.f t u h) ⟨_, _, rfl⟩, z (DP5.K6 E.f t u h) ⟨_, _, rfl⟩]
    simp
  exact ⟨l, h1, h4, List.IsChain.all_eq (g := fun p : ℝ × (Fin n → ℝ) => ∑ i, w i * p.2 i) h3 h2⟩

/-- A system of two components with a conserved sum. -/
example : ∃ (E : DP5.Env 2) (b : Builder X 2 Unit) (s0 : DP5.St X 2 Unit), DP5.Problem E b 0 ![1, 0] ∧
    b.build DP5.alg = .ok s0 ∧ (∀ t u, ∑ i, (1 : ℝ) * E.f t u i = 0) ∧ E.f 0 ![1, 0] ≠ 0 := by
  refine ⟨_, Builder.default DP5.alg (fun _ _ u _ => ![-u 0, u 0]) (fv ![1, 0]) (fin 0, fin 1) (), _,
    DP5.default_problem two_ne_zero (f := fun _ u => ![-u 0, u 0]) ?_ 0 1 ![1, 0], rfl, ?_, ?_⟩
  · intro _ _ u; funext i; fin_cases i <;> rfl
  · intro t u; simp [Fin.sum_univ_two, DP5.defaultEnv]
  · intro h
    have := congrFun h 0
    simp [DP5.defaultEnv] at this

/-- **C22** A state at which the right-hand side vanishes at all times is never left, and no attempt is
rejected. -/
theorem C22_equilibria_dp5 (H : DP5.Problem E b t0 u0) (hb : b.build DP5.alg = .ok s0) {k : ℕ}
    {s : DP5.St X n P} (hs : Steps DP5.alg none k s0 s) (hz : ∀ t, E.f t u0 = 0) :
    s.u = fv u0 ∧ (∀ v ∈ s.sol.us, v = fv u0) ∧ s.stats.rejects = 0 ∧ s.stats.function_evals = 6 * k := by
  have st : ∀ t h, DP5.unewR E.f t u0 h = u0 ∧ DP5.uerrR E.f t u0 h = 0 := by
    intro t h
    have k1 : DP5.K1 E.f t u0 = 0 := hz t
    have k2 : DP5.K2 E.f t u0 h = 0 := by simp [DP5.K2, k1, hz]
    have k3 : DP5.K3 E.f t u0 h = 0 := by simp [DP5.K3, k1, k2, hz]
    have k4 : DP5.K4 E.f t u0 h = 0 := by simp [DP5.K4, k1, k2, k3, hz]
    have k5 : DP5.K5 E.f t u0 h = 0 := by simp [DP5.K5, k1, k2, k3, k4, hz]
    have k6 : DP5.K6 E.f t u0 h = 0 := by
      have : DP5.K6arg E.f t u0 h = u0 := by funext i; simp [DP5.K6arg, k1, k2, k3, k4, k5]
      rw [DP5.K6, this, hz]
    have hu : DP5.unewR E.f t u0 h = u0 := by funext i; simp [DP5.unewR, k1, k3, k4, k5, k6]
    have k7 : DP5.K7 E.f t u0 h = 0 := by rw [DP5.K7, hu, hz]
    exact ⟨hu, by funext i; simp [DP5.uerrR, k1, k3, k4, k5, k6, k7]⟩
  have err : ∀ t h, E.err t u0 h = 0 := by
    intro t h
    unfold DP5.Env.err DP5.errR Spec.errNorm
    rw [(st t h).2]; simp
  have key := Steps.induct (alg := DP5.alg)
    (I := fun k s => (∃ t h, DP5.Good E s t u0 h) ∧ (∀ v ∈ s.sol.us, v = fv u0) ∧ s.stats.rejects = 0 ∧
      s.stats.function_evals = 6 * k) ?_ ?_ hs
  · obtain ⟨⟨t, h, G⟩, h1⟩ := key
    exact ⟨G.num.u, h1⟩
  · obtain ⟨G, -, -, -, h1, -, h2, -⟩ := H.build hb
    exact ⟨⟨_, _, G⟩, by rw [h1]; simp, by rw [h2]; rfl, by rw [h2]; rfl⟩
  · rintro k s o s' ⟨⟨t, h, G⟩, h1, h2, h3⟩ h4
    obtain ⟨⟨fuel, h4⟩, -⟩ := stepReturns_none_iff.1 h4
    obtain ⟨j, h1', q, r, -, -, -, G', -, -, sp⟩ := G.step h4
    have hj : j = 0 := by
      cases r with
      | zero => rfl
      | succ he _ => rw [err] at he; linarith
    subst hj
    have hn : E.next t u0 h1' = u0 := (st t h1').1
    rw [hn] at G'
    refine ⟨⟨_, _, G'⟩, ?_, ?_, ?_⟩
    · rw [sp.us, G'.num.u]
      intro v hv
      rcases List.mem_append.1 hv with hv | hv
      · exact h1 v hv
      · simpa using hv
    · rw [sp.rejects, h2]; simp
    · rw [sp.function_evals, h3]; ring

/-- Such a problem which is not identically zero: `u' = t * (1 - u)` with `u(0) = 1`. -/
example : ∃ (E : DP5.Env 1) (b : Builder X 1 Unit) (s0 : DP5.St X 1 Unit), DP5.Problem E b 0 (fun _ => 1) ∧
    b.build DP5.alg = .ok s0 ∧ (∀ t, E.f t (fun _ => 1) = 0) ∧ E.f 1 (fun _ => 0) ≠ 0 := by
  refine ⟨_, Builder.default DP5.alg (fun _ _ u t => fun i => t * (fin 1 - u i)) (fv fun _ => 1) (fin 0, fin 1) (),
    _, DP5.default_problem one_ne_zero (f := fun t u i => t * (1 - u i)) ?_ 0 1 _, rfl, ?_, ?_⟩
  · intro _ t u; funext i; simp
  · intro t; funext i; simp [DP5.defaultEnv]
  · intro h
    have := congrFun h 0
    simp [DP5.defaultEnv] at this

/-! ### C24, C25, C30, C33: progress through the time span -/

/-- **C24** Forward runs: until `Success` is reported the recorded times increase strictly, and none of them
exceeds `tfinal`. -/
theorem C24_times_increase_dp5 (H : DP5.Problem E b t0 u0) (hS : E.Sane) (ht : t0 < E.tf)
    (hb : b.build DP5.alg = .ok s0) {s : DP5.St X n P}
    (hs : (∃ k, SomeSteps DP5.alg none k s0 s) ∨ IntegrateReturns DP5.alg none s0 s) :
    ∃ l, Recorded s.sol l ∧ (l.map Prod.fst).Pairwise (· < ·) ∧ ∀ p ∈ l, t0 ≤ p.1 ∧ p.1 ≤ E.tf := by
  have hd : E.d = 1 := by rw [H.dir, if_pos (by linarith)]
  -- one step from a state strictly before the end
  let I : DP5.St X n P → Prop := fun s => ∃ l t u h, DP5.Pos E s t u h ∧ Recorded s.sol l ∧
    (l.map Prod.fst).Pairwise (· < ·) ∧ (∀ p ∈ l, t0 ≤ p.1 ∧ p.1 ≤ t) ∧ t0 ≤ t ∧ 0 < h
  have step : ∀ {s s' : DP5.St X n P} {fuel : ℕ}, I s → (∀ t, s.t = fin t → t < E.tf) →
      DP5.step fuel s = .ok s' → I s' ∧ (s'.cache.last = false → ∀ t, s'.t = fin t → t < E.tf) := by
    rintro s s' fuel ⟨l, t, u, h, Q, hl, hp, hlt, h0, hh⟩ hlt' h1
    have htf := hlt' t Q.good.num.t
    obtain ⟨k, h1, h', -, -, Q', sp, -, p1, p2, p3, -, -⟩ := Q.step hS (by rw [hd]; ring) h1
    rw [hd] at p1 p2 p3
    simp only [mul_one, sub_pos] at p1 p2 p3
    have hh1 := p1 hh htf
    refine ⟨⟨l ++ [(t + h1, E.next t u h1)], _, _, _, Q', ⟨?_, ?_⟩, ?_, ?_, by linarith, p2 hh1⟩, ?_⟩
    · rw [sp.ts, hl.1, Q'.good.num.t]; simp
    · rw [sp.us, hl.2, Q'.good.num.u]; simp
    · rw [List.map_append, List.pairwise_append]
      refine ⟨hp, by simp, ?_⟩
      intro x hx y hy
      obtain ⟨p, hp, rfl⟩ := List.mem_map.1 hx
      simp at hy
      have := (hlt p hp).2
      linarith
    · intro p hp
      rcases List.mem_append.1 hp with hp | hp
      · have := hlt p hp
        exact ⟨this.1, by linarith⟩
      · simp at hp
        subst hp
        exact ⟨by simp; linarith, le_rfl⟩
    · intro hl t' ht'
      rw [Q'.good.num.t] at ht'
      injection ht' with ht'
      have := p3 hl hh htf
      linarith
  have some : ∀ {k : ℕ} {s : DP5.St X n P}, SomeSteps DP5.alg none k s0 s →
      I s ∧ ∀ t, s.t = fin t → t < E.tf := by
    intro k
    induction k with
    | zero =>
      intro s hs
      obtain rfl := Steps.zero_eq rfl hs.steps
      obtain ⟨G, -, -, h1, h2, -⟩ := H.build hb
      refine ⟨⟨[(t0, u0)], t0, u0, 1e-6, H.pos hb, ⟨by simp [h1], by simp [h2]⟩, by simp, by simp, le_rfl,
        by norm_num⟩, ?_⟩
      intro t h
      rw [G.num.t] at h
      injection h with h
      linarith
    | succ k ih =>
      intro s hs
      have hs' := hs
      obtain ⟨s1, i, h1, h2⟩ := SomeSteps.cases_snoc hs
      obtain ⟨I1, hlt⟩ := ih h1
      obtain ⟨⟨fuel, h2⟩, -⟩ := stepReturns_none_iff.1 h2
      obtain ⟨I2, h3⟩ := step I1 hlt h2
      exact ⟨I2, h3 (H.some_last hb hs').2⟩
  have fin : I s := by
    rcases hs with ⟨k, hs⟩ | hs
    · exact (some hs).1
    · obtain ⟨k, s1, h1, h2⟩ := (integrate_iff DP5.fuelMono).1 hs
      obtain ⟨I1, hlt⟩ := some h1
      obtain ⟨⟨fuel, h2⟩, -⟩ := stepReturns_none_iff.1 h2
      exact (step I1 hlt h2).1
  obtain ⟨l, t, u, h, Q, hl, hp, hlt, -, -⟩ := fin
  refine ⟨l, hl, hp, fun p hp => ⟨(hlt p hp).1, (hlt p hp).2.trans ?_⟩⟩
  have := Q.behind
  rw [hd] at this
  linarith

/-- **C25** `Success` means `tfinal` was reached: when `integrate()` returns with `Success`, the current time and
the last recorded time are `tfinal`. (Any direction, any finite positive options.) -/
theorem C25_success_dp5 (H : DP5.Problem E b t0 u0) (hb : b.build DP5.alg = .ok s0) {s : DP5.St X n P}
    (hs : IntegrateReturns DP5.alg none s0 s) (hc : s.sol.retcode = .Success) :
    s.t = fin E.tf ∧ s.sol.ts.getLast? = some (fin E.tf) := by
  obtain ⟨k, s1, h1, h2⟩ := (integrate_iff DP5.fuelMono).1 hs
  obtain ⟨hc1, hl1⟩ := H.some_last hb h1
  obtain ⟨t, u, h, G⟩ := H.good hb h1.steps
  obtain ⟨⟨fuel, h2⟩, -⟩ := stepReturns_none_iff.1 h2
  obtain ⟨k, h1, q, r, -, -, -, G', hl, -, sp⟩ := G.step h2
  have := (sp.success (by rw [hc1]; simp)).1 hc
  rw [hl, hl1] at this
  have hk : k = 0 := by by_contra h; simp [h] at this
  subst hk
  simp only [if_true] at this
  split at this
  · rename_i hcl
    have e : h1 = E.tf - t := by
      cases r
      rw [DP5.Env.first, if_pos hcl]
    have ht : s.t = fin E.tf := by rw [G'.num.t, e]; congr 1; ring
    exact ⟨ht, by rw [sp.ts, ht]; simp⟩
  · simp at this

/-- **C25** With sane options the same holds after any number of `step()` calls, also beyond the end of the
run. -/
theorem C25_success_always_dp5 (H : DP5.Problem E b t0 u0) (hS : E.Sane) (hb : b.build DP5.alg = .ok s0) {k : ℕ}
    {s : DP5.St X n P} (hs : Steps DP5.alg none k s0 s) (hc : s.sol.retcode = .Success) :
    s.t = fin E.tf ∧ s.sol.ts.getLast? = some (fin E.tf) := by
  obtain ⟨t, u, h, Q, h1⟩ := H.run hS hb hs
  have ht : s.t = fin E.tf := by rw [Q.good.num.t, (Q.last (h1.1 hc)).1]
  refine ⟨ht, ?_⟩
  cases k with
  | zero =>
    obtain rfl := Steps.zero_eq rfl hs
    rw [(H.build hb).2.2.2.2.2.1] at hc
    simp at hc
  | succ k =>
    obtain ⟨s1, o, h3, h4⟩ := Steps.cases_snoc hs
    obtain ⟨⟨fuel, h4⟩, -⟩ := stepReturns_none_iff.1 h4
    obtain ⟨_, _, _, _, _, _, _, sp⟩ := DP5.step_spec h4
    rw [sp.ts, ht]; simp

/-- **C30** Forward runs evaluate the right-hand side only at times in the time span. -/
theorem C30_calls_in_span_dp5 (H : DP5.Problem E b t0 u0) (hS : E.Sane) (ht : t0 ≤ E.tf)
    (hb : b.build DP5.alg = .ok s0) {k : ℕ} {s : DP5.St X n P} (hs : Steps DP5.alg none k s0 s) :
    ∀ c ∈ s.trace, ∃ t v, c = Call.rhs (fin t) (fv v) ∧ t0 ≤ t ∧ t ≤ E.tf := by
  have hd : E.d = 1 := by rw [H.dir, if_pos (by linarith)]
  have key := Steps.induct (alg := DP5.alg)
    (I := fun _ s => (∃ t u h, DP5.Pos E s t u h ∧ t0 ≤ t ∧ 0 ≤ h) ∧
      ∀ c ∈ s.trace, ∃ t v, c = Call.rhs (fin t) (fv v) ∧ t0 ≤ t ∧ t ≤ E.tf) ?_ ?_ hs
  · exact key.2
  · refine ⟨⟨_, _, _, H.pos hb, le_rfl, by norm_num⟩, ?_⟩
    rw [(H.build hb).2.2.2.2.2.2.2.1]
    intro c hc
    simp at hc
    exact ⟨_, _, hc, le_rfl, ht⟩
  · rintro k s o s' ⟨⟨t, u, h, Q, h1, h2⟩, h3⟩ h4
    obtain ⟨⟨fuel, h4⟩, -⟩ := stepReturns_none_iff.1 h4
    have tm := Q.step_times hS hd h2 h4
    obtain ⟨k', h1', h', -, -, Q', -, -, -, -, -, -, -, p⟩ := Q.step hS (by rw [hd]; ring) h4
    rw [hd] at p
    simp only [mul_one] at p
    obtain ⟨p1, p2⟩ := p h2
    refine ⟨⟨_, _, _, Q', by linarith, p2⟩, ?_⟩
    · intro c hc
      obtain hc | ⟨x, v, e, x1, x2⟩ := tm c hc
      · exact h3 c hc
      · exact ⟨x, v, e, by linarith, x2⟩

end
end Cyphus
