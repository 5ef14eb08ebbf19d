import Verif.Proofs.DP5Fac
/-!
# Simulation between related problems (`DormandPrince5`, exact arithmetic)
-/

namespace Cyphus
namespace DP5
open X
set_option linter.unusedSectionVars false
set_option autoImplicit false
noncomputable section
variable {n m : ℕ} {P P' : Type} {c lam : ℝ} {w : Fin m → ℝ} {σ : Fin m → Fin n} {E : Env n} {E' : Env m}

theorem Related.next_err (R : Related c lam w σ E E') (hn : n ≠ 0) (t : ℝ) (u : Fin n → ℝ) (h : ℝ) :
    E'.next (t + c) (relabel w σ u) h = relabel w σ (E.next t u h) ∧
    E'.err (t + c) (relabel w σ u) h = E.err t u h := by
  have F : ∀ t' u', t' = t + c → ∀ u0, u' = relabel w σ u0 → E'.f t' u' = relabel w σ (E.f t u0) := by
    rintro _ _ rfl _ rfl; exact R.rhs _ _
  have F' : ∀ s t' u' u0, t' = s + c → u' = relabel w σ u0 → E'.f t' u' = relabel w σ (E.f s u0) := by
    rintro _ _ _ _ rfl rfl; exact R.rhs _ _
  set v := relabel w σ u
  have k1 : K1 E'.f (t + c) v = relabel w σ (K1 E.f t u) := F' _ _ _ _ rfl rfl
  have k2 : K2 E'.f (t + c) v h = relabel w σ (K2 E.f t u h) := by
    refine F' _ _ _ _ (by ring) ?_
    funext i; simp only [k1, relabel, v]; ring
  have k3 : K3 E'.f (t + c) v h = relabel w σ (K3 E.f t u h) := by
    refine F' _ _ _ _ (by ring) ?_
    funext i; simp only [k1, k2, relabel, v]; ring
  have k4 : K4 E'.f (t + c) v h = relabel w σ (K4 E.f t u h) := by
    refine F' _ _ _ _ (by ring) ?_
    funext i; simp only [k1, k2, k3, relabel, v]; ring
  have k5 : K5 E'.f (t + c) v h = relabel w σ (K5 E.f t u h) := by
    refine F' _ _ _ _ (by ring) ?_
    funext i; simp only [k1, k2, k3, k4, relabel, v]; ring
  have k6 : K6 E'.f (t + c) v h = relabel w σ (K6 E.f t u h) := by
    refine F' _ _ _ _ (by ring) ?_
    funext i; simp only [K6arg, k1, k2, k3, k4, k5, relabel, v]; ring
  have hu : unewR E'.f (t + c) v h = relabel w σ (unewR E.f t u h) := by
    funext i; simp only [unewR, k1, k3, k4, k5, k6, relabel, v]; ring
  have k7 : K7 E'.f (t + c) v h = relabel w σ (K7 E.f t u h) := F' _ _ _ _ (by ring) hu
  have he : uerrR E'.f (t + c) v h = relabel w σ (uerrR E.f t u h) := by
    funext i; simp only [uerrR, k1, k3, k4, k5, k6, k7, relabel, v]; ring
  refine ⟨hu, ?_⟩
  unfold Env.err errR Spec.errNorm
  rw [hu, he, R.abstol, R.reltol]
  congr 1
  obtain ⟨q, hq, hfib⟩ := R.fibres
  have e1 : ∀ i, (relabel w σ (uerrR E.f t u h) i / (lam * E.a + E.r * max |v i| |relabel w σ (unewR E.f t u h) i|)) ^ 2
      = (fun j => (uerrR E.f t u h j / (E.a + E.r * max |u j| |unewR E.f t u h j|)) ^ 2) (σ i) := by
    intro i
    have hw := R.scale i
    have hp := R.pos
    simp only [v, relabel, abs_mul, hw]
    rw [← mul_max_of_nonneg _ _ hp.le]
    have e2 : lam * E.a + E.r * (lam * max |u (σ i)| |unewR E.f t u h (σ i)|) =
        lam * (E.a + E.r * max |u (σ i)| |unewR E.f t u h (σ i)|) := by ring
    rw [e2, div_pow, div_pow, mul_pow, mul_pow, ← sq_abs (w i), hw]
    rw [mul_div_mul_left _ _ (by positivity)]
  have sumσ : ∀ g : Fin n → ℝ, ∑ i, g (σ i) = q * ∑ j, g j := by
    intro g
    rw [← Finset.sum_fiberwise (s := Finset.univ) (g := σ), Finset.mul_sum]
    refine Finset.sum_congr rfl fun j _ => ?_
    rw [Finset.sum_congr rfl (g := fun _ => g j) (by intro i hi; rw [(Finset.mem_filter.1 hi).2])]
    rw [Finset.sum_const, hfib j, nsmul_eq_mul]
  have hm : (m : ℝ) = q * n := by
    have := sumσ fun _ => 1
    simpa using this
  rw [Finset.sum_congr rfl fun i _ => e1 i,
    sumσ fun j => (uerrR E.f t u h j / (E.a + E.r * max |u j| |unewR E.f t u h j|)) ^ 2, hm]
  rw [mul_div_mul_left]
  exact_mod_cast hq

/-- The two states correspond to each other. -/
structure Sim (c : ℝ) (w : Fin m → ℝ) (σ : Fin m → Fin n) (E : Env n) (E' : Env m) (s : St X n P) (s' : St X m P')
    (t : ℝ) (u : Fin n → ℝ) (h : ℝ) : Prop where
  left : Good E s t u h
  right : Good E' s' (t + c) (relabel w σ u) h
  facold : s'.cache.facold = s.cache.facold
  last : s'.cache.last = s.cache.last
  reject : s'.cache.reject = s.cache.reject
  stats : s'.stats = s.stats
  max_steps : s'.opts.max_steps = s.opts.max_steps
  recorded : ∃ l, Recorded s.sol l ∧ Recorded s'.sol (l.map fun p => (p.1 + c, relabel w σ p.2))
  code : s'.sol.retcode = s.sol.retcode ∨ s.sol.retcode = .DtLessThanMin ∨ s'.sol.retcode = .DtLessThanMin

variable {s : St X n P} {s' : St X m P'} {t : ℝ} {u : Fin n → ℝ} {h : ℝ}

theorem Sim.err (R : Related c lam w σ E E') (S : Sim c w σ E E' s s' t u h) : errOf s' = errOf s := by
  rw [S.left.err, S.right.err, (R.next_err S.left.dim t u h).2]

theorem Sim.retry (R : Related c lam w σ E E') (S : Sim c w σ E E' s s' t u h)
    (hr : Fl.le (errOf s) 1.0 = false) : Sim c w σ E E' (retry s) (retry s') t u (E.shrink t u h) := by
  have G' := S.right.retry (by rw [S.err R]; exact hr)
  have e : E'.shrink (t + c) (relabel w σ u) h = E.shrink t u h := by
    unfold Env.shrink
    rw [(R.next_err S.left.dim t u h).2, R.safe, R.facl, R.beta]
  rw [e] at G'
  obtain ⟨l, h1, h2⟩ := S.recorded
  refine ⟨S.left.retry hr, G', ?_, ?_, ?_, ?_, ?_, ⟨l, ⟨?_, ?_⟩, ⟨?_, ?_⟩⟩, ?_⟩
  · simpa using S.facold
  · simp
  · simp
  · simp [S.stats]
  · simpa using S.max_steps
  · simpa using h1.1
  · simpa using h1.2
  · rw [retry_ts]; exact h2.1
  · rw [retry_us]; exact h2.2
  · rw [retry_retcode, retry_retcode]
    split
    · exact .inr (.inr rfl)
    · split
      · exact .inr (.inl rfl)
      · exact S.code

theorem Sim.rejs (R : Related c lam w σ E E') (S : Sim c w σ E E' s s' t u h) {k : ℕ} {s1 : St X n P}
    (hr : Rejs k s s1) : ∃ s1' h1, Rejs k s' s1' ∧ Sim c w σ E E' s1 s1' t u h1 := by
  induction hr generalizing s' h with
  | zero s => exact ⟨s', h, .zero _, S⟩
  | succ h1 _ ih =>
    obtain ⟨s1', h2, h3, h4⟩ := ih (S.retry R h1)
    exact ⟨s1', h2, .succ (by rw [S.err R]; exact h1) h3, h4⟩

theorem Sim.clampLast (R : Related c lam w σ E E') (hd : E'.d = E.d) (S : Sim c w σ E E' s s' t u h) :
    Sim c w σ E E' (clampLast s) (clampLast s') t u (E.first t h) := by
  have e : (t + c + 1.01 * h - E'.tf) * E'.d = (t + 1.01 * h - E.tf) * E.d := by rw [hd, R.tfinal]; ring
  have G' := S.right.clampLast
  have e2 : (if (t + c + 1.01 * h - E'.tf) * E'.d > 0 then E'.tf - (t + c) else h) = E.first t h := by
    rw [e, Env.first, R.tfinal]
    split
    · ring
    · rfl
  rw [e2] at G'
  have f := Frame.clampLast s
  have f' := Frame.clampLast s'
  have k := clampLast_stats s
  have k' := clampLast_stats s'
  refine ⟨S.left.clampLast, G', ?_, ?_, ?_, ?_, ?_, ?_, ?_⟩
  · rw [f.facold, f'.facold, S.facold]
  · rw [S.left.clamp_last, S.right.clamp_last, e, S.last]
  · rw [k.2.2.2, k'.2.2.2, S.reject]
  · rw [k.1, k'.1, S.stats]
  · rw [f.opts, f'.opts, S.max_steps]
  · rw [k.2.1, k'.2.1]; exact S.recorded
  · rw [k.2.1, k'.2.1]; exact S.code

theorem Good.accepted_dt_congr (R : Related c lam w σ E E') (hd : E'.d = E.d) (S : Sim c w σ E E' s s' t u h) :
    (DP5.accepted s').dt = (DP5.accepted s).dt := by
  have C := S.left.ctl
  have C' := S.right.ctl
  have e : stepFac s'.opts s'.cache.facold (errOf s') = stepFac s.opts s.cache.facold (errOf s) := by
    unfold stepFac fac11
    rw [C.facl, C.facr, C.beta, C.safe, C'.facl, C'.facr, C'.beta, C'.safe, S.err R, S.facold, R.facl, R.facr,
      R.beta, R.safe]
  rw [accepted_dt, accepted_dt, e, S.reject, S.left.num.dt, S.right.num.dt, S.left.tdir, S.right.tdir, C.dtmax,
    C'.dtmax, R.dtmax, hd]

theorem Sim.accepted (R : Related c lam w σ E E') (hd : E'.d = E.d) (S : Sim c w σ E E' s s' t u h) :
    ∃ h', Sim c w σ E E' (accepted s) (accepted s') (t + h) (E.next t u h) h' := by
  obtain ⟨q, -, -, G⟩ := S.left.accepted
  obtain ⟨q', -, -, G'⟩ := S.right.accepted
  have hdt := Good.accepted_dt_congr R hd S
  rw [G.num.dt, G'.num.dt] at hdt
  injection hdt with hdt
  rw [hdt, (R.next_err S.left.dim t u h).1, show t + c + h = t + h + c by ring] at G'
  refine ⟨_, G, G', ?_, ?_, ?_, ?_, ?_, ?_, ?_⟩
  · simp [S.err R]
  · simpa using S.last
  · simp
  · simp [S.stats]
  · simpa using S.max_steps
  · simpa using S.recorded
  · simpa using S.code

theorem Sim.finishStep (S : Sim c w σ E E' s s' t u h) : Sim c w σ E E' (finishStep s) (finishStep s') t u h := by
  obtain ⟨l, h1, h2⟩ := S.recorded
  refine ⟨S.left.finishStep, S.right.finishStep, ?_, ?_, ?_, ?_, ?_, ⟨l ++ [(t, u)], ⟨?_, ?_⟩, ⟨?_, ?_⟩⟩, ?_⟩
  · simpa using S.facold
  · simpa using S.last
  · simpa using S.reject
  · simp [S.stats]
  · simpa using S.max_steps
  · simp [h1.1, S.left.num.t]
  · simp [h1.2, S.left.num.u]
  · rw [finishStep_ts, h2.1, S.right.num.t]; simp
  · rw [finishStep_us, h2.2, S.right.num.u]; simp
  · rw [finishStep_retcode, finishStep_retcode, S.last, S.stats, S.max_steps]
    split
    · exact .inl rfl
    · split
      · exact .inl rfl
      · exact S.code

theorem Sim.step (R : Related c lam w σ E E') (hd : E'.d = E.d) (S : Sim c w σ E E' s s' t u h) {fuel : ℕ}
    {s1 : St X n P} (hs : step fuel s = .ok s1) :
    ∃ s1' t1 u1 h1, DP5.step fuel s' = .ok s1' ∧ Sim c w σ E E' s1 s1' t1 u1 h1 := by
  obtain ⟨k, s2, hk, hr, he, hm, rfl⟩ := step_ok.1 hs
  obtain ⟨s2', h2, hr', S2⟩ := (S.clampLast R hd).rejs R hr
  obtain ⟨h3, S3⟩ := S2.accepted R hd
  exact ⟨_, _, _, _, step_ok.2 ⟨k, s2', hk, hr', by rw [S2.err R]; exact he, S2.right.ctl.stiff, rfl⟩, S3.finishStep⟩

theorem Sim.build {b : Builder X n P} {b' : Builder X m P'} {t0 : ℝ} {u0 : Fin n → ℝ} (H : Problem E b t0 u0)
    (H' : Problem E' b' (t0 + c) (relabel w σ u0)) (ho : b'.opts.max_steps = b.opts.max_steps)
    {s0 : St X n P} {s0' : St X m P'} (hb : b.build alg = .ok s0) (hb' : b'.build alg = .ok s0') :
    Sim c w σ E E' s0 s0' t0 u0 1e-6 := by
  obtain ⟨G, a1, a2, a3, a4, a5, a6, -, a7⟩ := H.build hb
  obtain ⟨G', c1, c2, c3, c4, c5, c6, -, c7⟩ := H'.build hb'
  have o1 : s0.opts = b.opts := by rw [← Res.ok.inj hb]
  have o2 : s0'.opts = b'.opts := by rw [← Res.ok.inj hb']
  refine ⟨G, G', by rw [a7, c7], by rw [a2, c2], by rw [a1, c1], by rw [a6, c6], by rw [o1, o2, ho],
    ⟨[(t0, u0)], ⟨by simp [a3], by simp [a4]⟩, ⟨by simp [c3], by simp [c4]⟩⟩, .inl (by rw [a5, c5])⟩

theorem Sim.steps (R : Related c lam w σ E E') (hd : E'.d = E.d) {s0 : St X n P} {s0' : St X m P'} {t0 : ℝ}
    {u0 : Fin n → ℝ} {h0 : ℝ} (S : Sim c w σ E E' s0 s0' t0 u0 h0) {k : ℕ} {s : St X n P}
    (hs : Steps alg none k s0 s) :
    ∃ s' t u h, Steps alg none k s0' s' ∧ Sim c w σ E E' s s' t u h := by
  induction k generalizing s with
  | zero =>
    obtain rfl := Steps.zero_eq rfl hs
    exact ⟨s0', _, _, _, Steps.zero (alg := alg) (cb := none) s0', S⟩
  | succ k ih =>
    obtain ⟨s1, o, h1, h2⟩ := Steps.cases_snoc hs
    obtain ⟨s1', t, u, h, h3, S1⟩ := ih h1
    obtain ⟨⟨fuel, h2⟩, -⟩ := stepReturns_none_iff.1 h2
    obtain ⟨s2', t2, u2, h2', h4, S2⟩ := S1.step R hd h2
    exact ⟨s2', t2, u2, h2', .succ h3 (stepReturns_none_iff.2 ⟨⟨fuel, h4⟩, rfl⟩), S2⟩

end
end DP5
end Cyphus
