import Verif.Proofs.Cut
import Verif.Props.DP5Rounding
import Verif.Proofs.RadauSample
import Verif.Arith.Binary64
/-!
# What a longer run repeats (C70, C71)

C70 holds for every arithmetic, C71 with rounding.
-/

namespace Cyphus
open X
set_option linter.unusedSectionVars false
set_option autoImplicit false
variable {F : Type} {n : Nat} {P : Type}

/-- The run from `a` is cut short by its step limit, the run from `b` is not: as long as `step()` returns `Some` on
`a`, it does the same on `b`; if `integrate()` returns on `a` with a code other than `MaxIters`, it does the same on
`b`; and whatever the code is, the points recorded from `a` are the first ones of those recorded from `b`. -/
structure CutShort (alg : Algorithm F n P) (a b : Integ F n P alg.Cache) : Prop where
  steps : ∀ k s, SomeSteps alg none k a s → ∃ s', SomeSteps alg none k b s' ∧ s'.view = s.view
  integrate : ∀ s, IntegrateReturns alg none a s → s.sol.retcode ≠ .MaxIters →
    ∃ s', IntegrateReturns alg none b s' ∧ s'.view = s.view
  points : ∀ s s', IntegrateReturns alg none a s → IntegrateReturns alg none b s' →
    s.sol.ts <+: s'.sol.ts ∧ s.sol.us <+: s'.sol.us

section
variable {alg : Algorithm F n P}

/-- Two histories of calls returning `Some`, the second of which cannot be continued by such a call. -/
theorem SomeSteps.le_of_end (hm : FuelMono alg) {a s s1 s2 : Integ F n P alg.Cache} {j k : Nat}
    (h : SomeSteps alg none j a s) (g : SomeSteps alg none k a s1) (ge : StepReturns alg none s1 none s2) :
    j ≤ k ∧ ∃ i, j + i = k ∧ SomeSteps alg none i s s1 := by
  induction j generalizing a k with
  | zero => rw [h.cases_zero]; exact ⟨Nat.zero_le _, k, by omega, g⟩
  | succ j ih =>
    obtain ⟨x, i, h1, h2⟩ := h.cases_cons
    cases k with
    | zero =>
      rw [g.cases_zero] at ge
      have := (stepReturns_unique hm h1 ge).1
      simp at this
    | succ k =>
      obtain ⟨y, i', g1, g2⟩ := g.cases_cons
      have := (stepReturns_unique hm h1 g1).2
      subst this
      obtain ⟨e, i, e2, h3⟩ := ih h2 g2
      exact ⟨by omega, i, by omega, h3⟩

theorem CutShort.of_sim (hm : FuelMono alg)
    (hg : ∀ fuel s s', alg.step fuel s = .ok s' → Grows (alg := alg) s s')
    (R : Integ F n P alg.Cache → Integ F n P alg.Cache → Prop)
    (hv : ∀ a b, R a b → b.view = a.view)
    (hs : ∀ fuel a b a', R a b → a.sol.retcode = .Continue → alg.step fuel a = .ok a' →
      (∃ b', alg.step fuel b = .ok b' ∧ R a' b') ∨ (a'.sol.retcode = .MaxIters ∧
        ∀ fuel b', alg.step fuel b = .ok b' → a'.sol.ts <+: b'.sol.ts ∧ a'.sol.us <+: b'.sol.us))
    {a b : Integ F n P alg.Cache} (h : R a b) (hc : a.sol.retcode = .Continue) : CutShort alg a b := by
  have hst : ∀ {a b}, R a b → b.stats = a.stats ∧ b.sol = a.sol := fun {a b} h =>
    ⟨congrArg View.stats (hv _ _ h), congrArg View.sol (hv _ _ h)⟩
  have one : ∀ {a b o a'}, R a b → a.sol.retcode = .Continue → StepReturns alg none a o a' →
      (∃ b', StepReturns alg none b o b' ∧ R a' b') ∨ (a'.sol.retcode = .MaxIters ∧
        ∀ o b', StepReturns alg none b o b' → a'.sol.ts <+: b'.sol.ts ∧ a'.sol.us <+: b'.sol.us) := by
    intro a b o a' h h0 h1
    obtain ⟨⟨fuel, h1⟩, ho⟩ := stepReturns_none_iff.1 h1
    rcases hs _ _ _ _ h h0 h1 with ⟨b', h2, h3⟩ | ⟨h2, h3⟩
    · exact .inl ⟨b', stepReturns_none_iff.2 ⟨⟨fuel, h2⟩, by rw [(hst h3).1, (hst h3).2]; exact ho⟩, h3⟩
    · refine .inr ⟨h2, fun o b' h4 => ?_⟩
      obtain ⟨⟨fuel, h4⟩, -⟩ := stepReturns_none_iff.1 h4
      exact h3 _ _ h4
  have keyS : ∀ {k s}, SomeSteps alg none k a s → s.sol.retcode = .Continue ∧
      ∃ s', SomeSteps alg none k b s' ∧ R s s' := by
    intro k s h1
    refine SomeSteps.induct (I := fun k s => s.sol.retcode = .Continue ∧ ∃ s', SomeSteps alg none k b s' ∧ R s s')
      ⟨hc, b, .zero _, h⟩ (fun {k s i s'} ⟨g0, x, g1, g2⟩ h2 => ?_) h1
    obtain ⟨-, ho⟩ := stepReturns_none_iff.1 h2
    have h5 : s'.sol.retcode = .Continue := by
      by_contra hc
      rw [if_neg hc] at ho
      simp at ho
    rcases one g2 g0 h2 with ⟨b', h3, h4⟩ | ⟨h3, -⟩
    · exact ⟨h5, b', .succ g1 h3, h4⟩
    · rw [h5] at h3; simp at h3
  refine ⟨?_, ?_, ?_⟩
  · intro k s h1
    obtain ⟨-, s', h2, h3⟩ := keyS h1
    exact ⟨s', h2, hv _ _ h3⟩
  · intro s h1 hne
    obtain ⟨k, s1, h2, h3⟩ := (integrate_iff hm).1 h1
    obtain ⟨h0, s', h4, h5⟩ := keyS h2
    rcases one h5 h0 h3 with ⟨b', h6, h7⟩ | ⟨h6, -⟩
    · exact ⟨b', (integrate_iff hm).2 ⟨k, s', h4, h6⟩, hv _ _ h7⟩
    · exact absurd h6 hne
  · intro s y h1 h1'
    obtain ⟨k, s1, h2, h3⟩ := (integrate_iff hm).1 h1
    obtain ⟨k', y1, g2, g3⟩ := (integrate_iff hm).1 h1'
    obtain ⟨h0, s', h4, h5⟩ := keyS h2
    obtain ⟨-, i, -, g4⟩ := SomeSteps.le_of_end hm h4 g2 g3
    -- the call of the longer run in the state in which the shorter one stops
    obtain ⟨o, z, g5, g6⟩ : ∃ o z, StepReturns alg none s' o z ∧ Grows (alg := alg) z y := by
      cases i with
      | zero =>
        rw [g4.cases_zero] at g3
        exact ⟨_, y, g3, Grows.refl _⟩
      | succ i =>
        obtain ⟨x, j, e1, e2⟩ := g4.cases_cons
        exact ⟨_, x, e1, Steps.grows .none hg (.succ e2.steps g3)⟩
    rcases one h5 h0 h3 with ⟨b', h6, h7⟩ | ⟨-, h6⟩
    · have := (stepReturns_unique hm g5 h6).2
      subst this
      have := (hst h7).2
      rw [← this]
      exact ⟨g6.ts, g6.us⟩
    · obtain ⟨e1, e2⟩ := h6 _ _ g5
      exact ⟨e1.trans g6.ts, e2.trans g6.us⟩

end

section
variable [Add F] [Sub F] [Mul F] [Div F] [Neg F] [OfScientific F] [Fl F] [FlInf F]

/-! ### C70 -/

/-- **C70** (DormandPrince5). The option `dense` has no influence on a run. -/
theorem C70_dense_dp5 (b : Builder F n P) (v : Bool) {s s' : DP5.St F n P} (hs : b.build DP5.alg = .ok s)
    (hs' : (b.sets [.dense v]).build DP5.alg = .ok s') :
    s'.view = s.view ∧ BehaveAlike DP5.alg s s' ∧ BehaveAlike DP5.alg s' s := by
  have e : s = _ := (Res.ok.inj hs).symm
  have e1 : s' = _ := (Res.ok.inj hs').symm
  have h : DP5.cut s.opts.max_steps s.tfinal s = DP5.cut s.opts.max_steps s.tfinal s' ∧
      s'.opts.max_steps = s.opts.max_steps ∧ s'.tfinal = s.tfinal := by
    rw [e, e1]; exact ⟨rfl, rfl, rfl⟩
  -- states that agree without dense output behave alike
  have key : ∀ {a c : DP5.St F n P}, DP5.cut a.opts.max_steps a.tfinal a = DP5.cut c.opts.max_steps c.tfinal c →
      BehaveAlike DP5.alg a c := by
    intro a c h
    have sub : ∀ fuel (a : DP5.St F n P), DP5.step fuel (DP5.cut a.opts.max_steps a.tfinal a) =
        (DP5.step fuel a).map (DP5.cut a.opts.max_steps a.tfinal) := by
      intro fuel a
      rcases DP5.cut_step a.opts.max_steps a.tfinal a fuel le_rfl (.inl rfl) with ⟨_, _, _, _, h, _⟩ | h
      · exact absurd rfl h
      · exact h
    have fr : ∀ {fuel} {a a' : DP5.St F n P}, DP5.step fuel a = .ok a' → a'.opts.max_steps = a.opts.max_steps ∧
        a'.tfinal = a.tfinal := by
      intro fuel a a' h
      obtain ⟨k, s1, -, hr, -, -, -, sp⟩ := DP5.step_spec h
      exact ⟨congrArg Opts.max_steps sp.opts, sp.tfinal⟩
    have sim : ∀ {fuel} {a c : DP5.St F n P}, DP5.cut a.opts.max_steps a.tfinal a =
        DP5.cut c.opts.max_steps c.tfinal c → (DP5.step fuel a).map (DP5.cut a.opts.max_steps a.tfinal) =
          (DP5.step fuel c).map (DP5.cut c.opts.max_steps c.tfinal) := by
      intro fuel a c h
      rw [← sub, ← sub, h]
    refine BehaveAlike.of_sim (alg := DP5.alg) DP5.fuelMono
      (fun a c => DP5.cut a.opts.max_steps a.tfinal a = DP5.cut c.opts.max_steps c.tfinal c) ?_ ?_ ?_ h
    · intro a c h
      exact (congrArg Integ.view h).symm
    · intro fuel a c a' h h1
      have := sim (fuel := fuel) h
      rw [show DP5.step fuel a = .ok a' from h1] at this
      cases h2 : DP5.step fuel c with
      | ok c' =>
        rw [h2] at this
        simp only [Res.map_ok, Res.ok.injEq] at this
        refine ⟨c', h2, ?_⟩
        rw [(fr h1).1, (fr h1).2, (fr h2).1, (fr h2).2]
        exact this
      | panic => rw [h2] at this; simp at this
      | timeout => rw [h2] at this; simp at this
    · intro fuel a c h h1
      have := sim (fuel := fuel) h
      rw [show DP5.step fuel a = .panic from h1] at this
      show DP5.step fuel c = .panic
      cases h2 : DP5.step fuel c with
      | ok c' => rw [h2] at this; simp at this
      | panic => rfl
      | timeout => rw [h2] at this; simp at this
  obtain ⟨h1, h2, h3⟩ := h
  refine ⟨by rw [e, e1]; rfl, key ?_, key ?_⟩
  · rw [h2, h3]; exact h1
  · rw [h2, h3]; exact h1.symm

/-- **C70** (Radau5). The option `dense` has no influence on a run. -/
theorem C70_dense_radau (b : Builder F n P) (v : Bool) {s s' : Radau.St F n P} (hs : b.build Radau.alg = .ok s)
    (hs' : (b.sets [.dense v]).build Radau.alg = .ok s') :
    s'.view = s.view ∧ BehaveAlike Radau.alg s s' ∧ BehaveAlike Radau.alg s' s := by
  have e : s = _ := (Res.ok.inj hs).symm
  have e1 : s' = _ := (Res.ok.inj hs').symm
  have h : s' = Radau.cut s.opts.max_steps s.tfinal v s.cache.cont0 s ∧
      s = Radau.cut s'.opts.max_steps s'.tfinal s.opts.dense s'.cache.cont0 s' := by
    rw [e, e1]; exact ⟨rfl, rfl⟩
  have key : ∀ (v : Bool) (w : Vec n F) (a : Radau.St F n P),
      BehaveAlike Radau.alg a (Radau.cut a.opts.max_steps a.tfinal v w a) := by
    intro v w a
    have sub : ∀ fuel w (a : Radau.St F n P), ∃ w', Radau.step fuel (Radau.cut a.opts.max_steps a.tfinal v w a) =
        (Radau.step fuel a).map (Radau.cut a.opts.max_steps a.tfinal v w') := by
      intro fuel w a
      rcases Radau.cut_step a.opts.max_steps a.tfinal v w a fuel le_rfl (.inl rfl) with ⟨_, _, h, _⟩ | h
      · exact absurd rfl h
      · exact h
    refine BehaveAlike.of_sim (alg := Radau.alg) Radau.fuelMono
      (fun a c => ∃ w, c = Radau.cut a.opts.max_steps a.tfinal v w a) ?_ ?_ ?_ ⟨w, rfl⟩
    · rintro a c ⟨w, rfl⟩; rfl
    · rintro fuel a c a' ⟨w, rfl⟩ h1
      obtain ⟨w', h2⟩ := sub fuel w a
      rw [show Radau.step fuel a = .ok a' from h1] at h2
      have f : Radau.StepFrame a a' := Radau.step_frame h1
      exact ⟨_, h2, w', by rw [f.opts, f.tfinal]⟩
    · rintro fuel a c ⟨w, rfl⟩ h1
      obtain ⟨w', h2⟩ := sub fuel w a
      rw [show Radau.step fuel a = .panic from h1] at h2
      exact h2
  refine ⟨by rw [h.1]; rfl, ?_, ?_⟩
  · rw [h.1]; exact key _ _ _
  · have := key s.opts.dense s'.cache.cont0 s'
    rwa [← h.2] at this

/-- **C70** (DormandPrince5). A run with a smaller `max_steps` is a run with a larger `max_steps`, cut short. -/
theorem C70_max_steps_dp5 (b : Builder F n P) {m m' : Nat} (hm : m ≤ m') {s s' : DP5.St F n P}
    (hs : (b.sets [.max_steps m]).build DP5.alg = .ok s) (hs' : (b.sets [.max_steps m']).build DP5.alg = .ok s') :
    CutShort DP5.alg s s' := by
  have e : s = _ := (Res.ok.inj hs).symm
  have e1 : s' = _ := (Res.ok.inj hs').symm
  have h : DP5.cut m' s.tfinal s' = DP5.cut m' s.tfinal s ∧ s.opts.max_steps = m ∧ s'.opts.max_steps = m' ∧
      s'.tfinal = s.tfinal ∧ s.sol.retcode = .Continue := by
    rw [e, e1]; exact ⟨rfl, rfl, rfl, rfl, rfl⟩
  have fr : ∀ {fuel} {a a' : DP5.St F n P}, DP5.step fuel a = .ok a' → a'.opts.max_steps = a.opts.max_steps ∧
      a'.tfinal = a.tfinal := by
    intro fuel a a' h
    obtain ⟨k, s1, -, hr, -, -, -, sp⟩ := DP5.step_spec h
    exact ⟨congrArg Opts.max_steps sp.opts, sp.tfinal⟩
  refine CutShort.of_sim (alg := DP5.alg) DP5.fuelMono DP5.grows
    (fun a c => DP5.cut m' a.tfinal c = DP5.cut m' a.tfinal a ∧ a.opts.max_steps = m ∧ c.opts.max_steps = m' ∧
      c.tfinal = a.tfinal) ?_ ?_ ⟨h.1, h.2.1, h.2.2.1, h.2.2.2.1⟩ h.2.2.2.2
  · rintro a c ⟨h1, -, -, h4⟩
    have h1' := congrArg Integ.view h1
    simp only [Integ.view, DP5.cut, View.mk.injEq] at h1' ⊢
    exact ⟨h1'.1, h1'.2.1, h1'.2.2.1, h1'.2.2.2.1, h1'.2.2.2.2.1, h1'.2.2.2.2.2.1, h1'.2.2.2.2.2.2.1,
      h1'.2.2.2.2.2.2.2.1, h1'.2.2.2.2.2.2.2.2.1, h4, h1'.2.2.2.2.2.2.2.2.2.2⟩
  · rintro fuel a c a' ⟨h1, h2, h3, h4⟩ - h5
    -- the longer run
    have hc : DP5.step fuel (DP5.cut m' a.tfinal a) = (DP5.step fuel c).map (DP5.cut m' a.tfinal) := by
      rw [← h1]
      rcases DP5.cut_step m' a.tfinal c fuel h3.le (.inl h4.symm) with ⟨_, _, _, _, h, _⟩ | h
      · exact absurd h3 h
      · exact h
    have back : ∀ {r}, DP5.step fuel (DP5.cut m' a.tfinal a) = .ok r →
        ∃ c', DP5.step fuel c = .ok c' ∧ r = DP5.cut m' a.tfinal c' := by
      intro r hr
      rw [hc] at hr
      cases h6 : DP5.step fuel c with
      | ok c' => rw [h6] at hr; exact ⟨c', rfl, (Res.ok.inj hr).symm⟩
      | panic => rw [h6] at hr; simp at hr
      | timeout => rw [h6] at hr; simp at hr
    rcases DP5.cut_step m' a.tfinal a fuel (h2 ▸ hm) (.inl rfl) with ⟨r, r', g1, g2, -, g4, g5, g6⟩ | g
    · right
      have : r = a' := Res.ok.inj (g1.symm.trans h5)
      subst this
      obtain ⟨c', h6, rfl⟩ := back g2
      refine ⟨g4, fun fuel' b' h7 => ?_⟩
      have h8 := DP5.fuelMono fuel (max fuel fuel') c c' (le_max_left _ _) h6
      have h9 := DP5.fuelMono fuel' (max fuel fuel') c b' (le_max_right _ _) h7
      have : b' = c' := Res.ok.inj (h9.symm.trans h8)
      subst this
      have e1 : b'.sol.ts = r.sol.ts := g5
      have e2 : b'.sol.us = r.sol.us := g6
      rw [e1, e2]
      exact ⟨List.prefix_rfl, List.prefix_rfl⟩
    · left
      rw [show DP5.step fuel a = .ok a' from h5] at g
      obtain ⟨c', h6, h7⟩ := back g
      refine ⟨c', h6, ?_, ?_, ?_, ?_⟩
      · rw [(fr h5).2]; exact h7.symm
      · rw [(fr h5).1, h2]
      · rw [(fr h6).1, h3]
      · rw [(fr h6).2, h4, (fr h5).2]

/-- **C70** (Radau5). -/
theorem C70_max_steps_radau (b : Builder F n P) {m m' : Nat} (hm : m ≤ m') {s s' : Radau.St F n P}
    (hs : (b.sets [.max_steps m]).build Radau.alg = .ok s)
    (hs' : (b.sets [.max_steps m']).build Radau.alg = .ok s') : CutShort Radau.alg s s' := by
  have e : s = _ := (Res.ok.inj hs).symm
  have e1 : s' = _ := (Res.ok.inj hs').symm
  have h : s' = Radau.cut m' s.tfinal s.opts.dense s.cache.cont0 s ∧ s.opts.max_steps = m := by
    rw [e, e1]; exact ⟨rfl, rfl⟩
  refine CutShort.of_sim (alg := Radau.alg) Radau.fuelMono Radau.grows
    (fun a c => (∃ w, c = Radau.cut m' a.tfinal a.opts.dense w a) ∧ a.opts.max_steps = m ∧
      (a.sol.retcode = .Continue → Radau.Ready a)) ?_ ?_ ⟨⟨_, h.1⟩, h.2, fun _ => Radau.build_ready hs⟩
      (Radau.build_ready hs).retcode
  · rintro a c ⟨⟨w, rfl⟩, -⟩; rfl
  · rintro fuel a c a' ⟨⟨w, rfl⟩, h1, h2⟩ hc h3
    have hr := h2 hc
    rcases Radau.cut_step m' a.tfinal a.opts.dense w a fuel (h1 ▸ hm) (.inl rfl) with ⟨r, g1, -, g3⟩ | ⟨w', g1⟩
    · right
      have : r = a' := Res.ok.inj (g1.symm.trans h3)
      subst this
      refine ⟨g3, fun fuel b' h4 => ?_⟩
      obtain ⟨-, g | g⟩ := Radau.step_cases hr h3
      · have := g.retcode
        simp [g3] at this
      · have := Radau.grows _ _ _ h4
        rw [g.frame.ts, g.frame.us]
        exact ⟨this.ts, this.us⟩
    · left
      rw [show Radau.step fuel a = .ok a' from h3] at g1
      have f : Radau.StepFrame a a' := Radau.step_frame h3
      exact ⟨_, g1, ⟨w', by rw [f.opts, f.tfinal]⟩, by rw [f.opts, h1], fun h => hr.step h3 h⟩

/-! ### C71 -/

variable {val : F → X} {rnd : ℝ → X}

theorem FloatLaws.mul_one' (L : FloatLaws val rnd) {a d : F} (hd : val d = fin 1) : val (a * d) = val a := by
  rw [L.mul, hd]
  cases h : val a with
  | fin x => rw [mul_fin, mul_one, round_fin, L.rnd_val h]
  | nan => rfl
  | pinf => rw [pinf_mul one_pos, round_pinf]
  | ninf => change (infSign (-1)).round rnd = _; rw [show infSign (-1) = ninf by norm_num [infSign]]; rfl

/-- Subtracting a larger number does not give a larger result. -/
theorem FloatLaws.sub_mono (L : FloatLaws val rnd) {a b : F} {x y : ℝ} (ha : val a = fin x) (hb : val b = fin y)
    (h : x ≤ y) (z : F) : (val (z - a) = nan ∧ val (z - b) = nan) ∨ Fl.le (val (z - b)) (val (z - a)) = true := by
  rw [L.sub, L.sub, ha, hb]
  cases hz : val z with
  | fin w => right; rw [sub_fin, sub_fin, round_fin, round_fin]; exact L.rnd_mono (by linarith)
  | nan => left; exact ⟨rfl, rfl⟩
  | pinf => right; rfl
  | ninf => right; rfl

theorem FloatLaws.ge_later (L : FloatLaws val rnd) {a b : F} {x y : ℝ} (ha : val a = fin x) (hb : val b = fin y)
    (h : x ≤ y) {z : F} (hz : Fl.ge (z - a) 0.0 = false) : Fl.ge (z - b) 0.0 = false := by
  have e : ∀ w : F, Fl.ge w 0.0 = Fl.le (fin 0) (val w) := fun w => L.le_zero_iff w
  rw [e] at hz ⊢
  rcases L.sub_mono ha hb h z with ⟨-, h2⟩ | h2
  · rw [h2]; rfl
  · rw [Bool.eq_false_iff] at hz ⊢
    exact fun hc => hz (le_trans' hc h2)

theorem FloatLaws.gt_later (L : FloatLaws val rnd) {a b : F} {x y : ℝ} (ha : val a = fin x) (hb : val b = fin y)
    (h : x ≤ y) {z : F} (hz : Fl.gt (z - a) 0.0 = false) : Fl.gt (z - b) 0.0 = false := by
  have e : ∀ w : F, Fl.gt w 0.0 = Fl.lt (fin 0) (val w) := fun w => L.lt_zero_iff w
  rw [e] at hz ⊢
  rcases L.sub_mono ha hb h z with ⟨-, h2⟩ | h2
  · rw [h2]; rfl
  · rw [Bool.eq_false_iff] at hz ⊢
    intro hc
    apply hz
    obtain ⟨r, e1, e2⟩ | e1 := gt_cases hc
    · rw [e1] at h2
      obtain ⟨q, e3, e4⟩ | e3 := ge_cases h2
      · rw [e3]; simp; linarith
      · rw [e3]; rfl
    · rw [e1] at h2
      revert h2
      cases val (z - a) <;> simp [Fl.le, leX, Fl.lt, ltX]

/-- The direction of a forward run. -/
theorem ForwardSpan.dir (L : FloatLaws val rnd) {b : Builder F n P} (H : ForwardSpan val b) :
    val (Fl.copysign 1.0 (b.tfinal - b.t) : F) = fin 1 := by
  obtain ⟨t, ht⟩ := H.t
  obtain ⟨tf, htf⟩ := H.tfinal
  have hl := H.lt
  rw [L.lt, ht, htf, lt_fin, decide_eq_true_eq] at hl
  rw [L.copysign, L.one, abs_fin, abs_one]
  rw [L.sub, htf, ht, sub_fin, round_fin]
  exact L.rnd_pos ht htf hl

/-- **C71** (DormandPrince5, with rounding). Two forward runs which differ only in `tfinal`: as long as, before each
call, the step to be tried does not come within one hundredth of its length of the earlier `tfinal`, the calls of
`step()` return the same and leave the same public data. -/
theorem C71_longer_span_dp5 (L : FloatLaws val rnd) {b : Builder F n P} (H : ForwardSpan val b) {tf' : F}
    (H' : ForwardSpan val { b with tfinal := tf' }) (hle : Fl.le b.tfinal tf' = true)
    (hdir : (Fl.copysign 1.0 (tf' - b.t) : F) = Fl.copysign 1.0 (b.tfinal - b.t)) {s0 s0' s : DP5.St F n P}
    (hb : b.build DP5.alg = .ok s0) (hb' : Builder.build DP5.alg { b with tfinal := tf' } = .ok s0') {k : Nat}
    (hs : Steps DP5.alg none k s0 s)
    (hfar : ∀ j x, j < k → Steps DP5.alg none j s0 x → Fl.gt (x.t + 1.01 * x.dt - b.tfinal) 0.0 = false) :
    ∃ s', Steps DP5.alg none k s0' s' ∧ s'.view = { s.view with tfinal := tf' } := by
  obtain ⟨tf, e1⟩ := H.tfinal
  obtain ⟨tg, e2⟩ := H'.tfinal
  have e2 : val tf' = fin tg := e2
  have hxy : tf ≤ tg := by rw [L.le, e1, e2] at hle; simpa using hle
  have hd := H.dir L
  -- the second run differs by `tfinal` and by dense data
  let R : DP5.St F n P → DP5.St F n P → Prop := fun a c =>
    DP5.cut a.opts.max_steps tf' c = DP5.cut a.opts.max_steps tf' a ∧ c.opts.max_steps = a.opts.max_steps ∧
      c.tfinal = tf' ∧ a.tfinal = b.tfinal ∧ a.tdir = Fl.copysign 1.0 (b.tfinal - b.t)
  have key : ∀ k s, Steps DP5.alg none k s0 s →
      (∀ j x, j < k → Steps DP5.alg none j s0 x → Fl.gt (x.t + 1.01 * x.dt - b.tfinal) 0.0 = false) →
      ∃ s', Steps DP5.alg none k s0' s' ∧ R s s' := by
    intro k
    induction k with
    | zero =>
      intro s h _
      have := Steps.zero_eq rfl h
      subst this
      refine ⟨s0', .zero _, ?_⟩
      have e : s = _ := (Res.ok.inj hb).symm
      have e' : s0' = _ := (Res.ok.inj hb').symm
      refine ⟨?_, by rw [e, e'], by rw [e'], by rw [e], by rw [e]⟩
      rw [e, e']
      simp only [DP5.cut]
      rw [hdir]
    | succ k ih =>
      intro s h hf
      obtain ⟨s1, o, h1, h2⟩ := Steps.cases_snoc h
      obtain ⟨c, g1, r1, r2, r3, r4, r5⟩ := ih s1 h1 (fun j x hj hx => hf j x (by omega) hx)
      have f1 := hf k s1 (by omega) h1
      have f2 : Fl.gt ((s1.t + 1.01 * s1.dt - s1.tfinal) * s1.tdir) 0.0 = false := by
        have : ∀ w : F, Fl.gt w 0.0 = Fl.lt (fin 0) (val w) := fun w => L.lt_zero_iff w
        rw [this, r5, L.mul_one' hd, ← this, r4]
        exact f1
      have f3 : Fl.gt ((s1.t + 1.01 * s1.dt - tf') * s1.tdir) 0.0 = false := by
        have : ∀ w : F, Fl.gt w 0.0 = Fl.lt (fin 0) (val w) := fun w => L.lt_zero_iff w
        rw [this, r5, L.mul_one' hd, ← this]
        exact L.gt_later e1 e2 hxy f1
      obtain ⟨⟨fuel, h3⟩, ho⟩ := stepReturns_none_iff.1 h2
      have g : DP5.step fuel (DP5.cut s1.opts.max_steps tf' s1) =
          (DP5.step fuel s1).map (DP5.cut s1.opts.max_steps tf') := by
        rcases DP5.cut_step s1.opts.max_steps tf' s1 fuel le_rfl (.inr ⟨f2, f3⟩) with ⟨_, _, _, _, h, _⟩ | h
        · exact absurd rfl h
        · exact h
      have g' : DP5.step fuel (DP5.cut s1.opts.max_steps tf' c) =
          (DP5.step fuel c).map (DP5.cut s1.opts.max_steps tf') := by
        rcases DP5.cut_step s1.opts.max_steps tf' c fuel r2.le (.inl r3.symm) with ⟨_, _, _, _, h, _⟩ | h
        · exact absurd r2 h
        · exact h
      rw [r1, g, show DP5.step fuel s1 = .ok s from h3] at g'
      cases h6 : DP5.step fuel c with
      | ok c' =>
        rw [h6] at g'
        have g' : DP5.cut s1.opts.max_steps tf' s = DP5.cut s1.opts.max_steps tf' c' := Res.ok.inj g'
        obtain ⟨_, _, -, -, -, -, -, sp⟩ := DP5.step_spec h3
        obtain ⟨_, _, -, -, -, -, -, sp'⟩ := DP5.step_spec h6
        have hsol : c'.sol = s.sol := (congrArg Integ.sol g').symm
        have hst : c'.stats = s.stats := (congrArg Integ.stats g').symm
        refine ⟨c', .succ g1 (stepReturns_none_iff.2 ⟨⟨fuel, h6⟩, rfl⟩), ?_, ?_, ?_, ?_, ?_⟩
        · rw [sp.opts]; exact g'.symm
        · rw [sp.opts, sp'.opts]; exact r2
        · rw [sp'.tfinal]; exact r3
        · rw [sp.tfinal]; exact r4
        · rw [sp.tdir]; exact r5
      | panic => rw [h6] at g'; simp at g'
      | timeout => rw [h6] at g'; simp at g'
  obtain ⟨s', h1, r1, -, r3, -⟩ := key k s hs hfar
  refine ⟨s', h1, ?_⟩
  have h := congrArg Integ.view r1
  simp only [Integ.view, DP5.cut, View.mk.injEq] at h ⊢
  exact ⟨h.1, h.2.1, h.2.2.1, h.2.2.2.1, h.2.2.2.2.1, h.2.2.2.2.2.1, h.2.2.2.2.2.2.1,
    h.2.2.2.2.2.2.2.1, h.2.2.2.2.2.2.2.2.1, r3, h.2.2.2.2.2.2.2.2.2.2⟩

/-- **C71** (Radau5, with rounding). The same as long as, before and after each call, the step to be tried ends before
the earlier `tfinal` (by one ten thousandth of its length) and is not the rest of the shorter span. -/
theorem C71_longer_span_radau (L : FloatLaws val rnd) {b : Builder F n P} (H : ForwardSpan val b) {tf' : F}
    (H' : ForwardSpan val { b with tfinal := tf' }) (hle : Fl.le b.tfinal tf' = true)
    (hdir : (Fl.copysign 1.0 (tf' - b.t) : F) = Fl.copysign 1.0 (b.tfinal - b.t)) {s0 s0' s : Radau.St F n P}
    (hb : b.build Radau.alg = .ok s0) (hb' : Builder.build Radau.alg { b with tfinal := tf' } = .ok s0') {k : Nat}
    (hs : Steps Radau.alg none k s0 s)
    (hfar : ∀ j x, j ≤ k → Steps Radau.alg none j s0 x →
      Fl.ge (x.t + x.dt * 1.0001 - b.tfinal) 0.0 = false ∧ x.dt ≠ b.tfinal - x.t) :
    ∃ s', Steps Radau.alg none k s0' s' ∧ s'.view = { s.view with tfinal := tf' } := by
  obtain ⟨tf, e1⟩ := H.tfinal
  obtain ⟨tg, e2⟩ := H'.tfinal
  have e2 : val tf' = fin tg := e2
  have hxy : tf ≤ tg := by rw [L.le, e1, e2] at hle; simpa using hle
  have hd := H.dir L
  have e0 : ∀ w : F, Fl.ge w 0.0 = Fl.le (fin 0) (val w) := fun w => L.le_zero_iff w
  let R : Radau.St F n P → Radau.St F n P → Prop := fun a c =>
    (∃ w, c = Radau.cut a.opts.max_steps tf' a.opts.dense w a) ∧ a.tfinal = b.tfinal ∧
      a.tdir = Fl.copysign 1.0 (b.tfinal - b.t)
  have key : ∀ k s, Steps Radau.alg none k s0 s →
      (∀ j x, j ≤ k → Steps Radau.alg none j s0 x →
        Fl.ge (x.t + x.dt * 1.0001 - b.tfinal) 0.0 = false ∧ x.dt ≠ b.tfinal - x.t) →
      ∃ s', Steps Radau.alg none k s0' s' ∧ R s s' := by
    intro k
    induction k with
    | zero =>
      intro s h _
      have := Steps.zero_eq rfl h
      subst this
      refine ⟨s0', .zero _, ⟨s.cache.cont0, ?_⟩, ?_, ?_⟩
      · have e : s = _ := (Res.ok.inj hb).symm
        have e' : s0' = _ := (Res.ok.inj hb').symm
        rw [e, e']
        simp only [Radau.cut]
        rw [← hdir]
      · rw [← Res.ok.inj hb]
      · rw [← Res.ok.inj hb]
    | succ k ih =>
      intro s h hf
      obtain ⟨s1, o, h1, h2⟩ := Steps.cases_snoc h
      obtain ⟨c, g1, ⟨w, rfl⟩, r4, r5⟩ := ih s1 h1 (fun j x hj hx => hf j x (by omega) hx)
      have f1 := (hf k s1 (by omega) h1).1
      have f4 := (hf (k + 1) s le_rfl h).2
      have sub : ∀ z a : F, val (z - a * s1.tdir) = val (z - a) := by
        intro z a
        rw [L.sub, L.sub, r5, L.mul_one' hd]
      have f2 : Fl.ge (s1.t + s1.dt * 1.0001 - s1.tfinal * s1.tdir) 0.0 = false := by
        rw [e0, sub, ← e0, r4]; exact f1
      have f3 : Fl.ge (s1.t + s1.dt * 1.0001 - tf' * s1.tdir) 0.0 = false := by
        rw [e0, sub, ← e0]
        exact L.ge_later e1 e2 hxy f1
      have fl : Radau.Later s1.tfinal tf' s1.tdir := by
        intro z hz
        rw [e0, r5, L.mul_one' hd, ← e0] at hz ⊢
        rw [r4] at hz
        exact L.ge_later e1 e2 hxy hz
      obtain ⟨⟨fuel, h3⟩, ho⟩ := stepReturns_none_iff.1 h2
      have fr : Radau.StepFrame s1 s := Radau.step_frame h3
      obtain ⟨w', g⟩ : ∃ w', Radau.step fuel (Radau.cut s1.opts.max_steps tf' s1.opts.dense w s1) =
          (Radau.step fuel s1).map (Radau.cut s1.opts.max_steps tf' s1.opts.dense w') := by
        have f5 : ∀ r, Radau.step fuel s1 = .ok r → r.dt ≠ s1.tfinal - r.t := by
          intro r hr
          have : r = s := Res.ok.inj (hr.symm.trans h3)
          subst this
          rw [r4]; exact f4
        rcases Radau.cut_step s1.opts.max_steps tf' s1.opts.dense w s1 fuel le_rfl
          (.inr ⟨fl, f2, f3, f5⟩) with ⟨_, _, h, _⟩ | h
        · exact absurd rfl h
        · exact h
      rw [show Radau.step fuel s1 = .ok s from h3] at g
      refine ⟨_, .succ g1 (stepReturns_none_iff.2 ⟨⟨fuel, g⟩, rfl⟩), ⟨w', ?_⟩, ?_, ?_⟩
      · rw [← fr.opts]
      · rw [fr.tfinal]; exact r4
      · rw [fr.tdir]; exact r5
  obtain ⟨s', h1, ⟨w, rfl⟩, -⟩ := key k s hs hfar
  exact ⟨_, h1, rfl⟩

end

/-- Exact arithmetic is a special case of arithmetic with rounding. -/
theorem X.laws : FloatLaws (fun x : X => x) fin where
  rnd_mono h := by simpa using h
  rnd_val h := by rfl
  rnd_nat k _ := rfl
  rnd_pos h1 h2 h := by simpa using h
  lit _ _ _ := rfl
  ofNat _ := rfl
  add a b := by cases h : a + b <;> rfl
  sub a b := by cases h : a - b <;> rfl
  mul a b := by cases h : a * b <;> rfl
  div a b _ := by cases h : a / b <;> rfl
  neg _ := rfl
  abs _ := rfl
  max _ _ := rfl
  min _ _ := rfl
  lt _ _ := rfl
  le _ _ := rfl
  copysign a b h := by
    cases b with
    | fin y => rw [lt_fin, decide_eq_true_eq] at h; change (if 0 ≤ y then _ else _) = _; rw [if_pos h.le]; rfl
    | pinf => rfl
    | nan => simp [Fl.lt, ltX] at h
    | ninf => simp [Fl.lt, ltX] at h
  pow_ge {a b} ha hb := by
    change Fl.lt (powX a b) (fin 1) = false
    unfold powX
    split
    · simp
    · rename_i hne
      rw [not_or] at hne
      cases a with
      | nan => rfl
      | ninf => simp [Fl.lt, ltX] at ha
      | fin x =>
        rw [lt_fin, decide_eq_false_iff_not, not_lt] at ha
        cases b with
        | nan => rfl
        | ninf => simp [Fl.le, leX] at hb
        | pinf =>
          simp only
          have h1 : |x| = x := abs_of_nonneg (by linarith)
          rw [h1, if_neg (not_lt.2 ha)]
          split
          · simp
          · rfl
        | fin y =>
          rw [le_fin, decide_eq_true_eq] at hb
          simp only [powR]
          rw [if_neg (fun h => hne.1 (by rw [h])), if_pos (by linarith), lt_fin, decide_eq_false_iff_not, not_lt]
          exact Real.one_le_rpow ha hb
      | pinf =>
        cases b with
        | nan => rfl
        | ninf => simp [Fl.le, leX] at hb
        | pinf => rfl
        | fin y =>
          rw [le_fin, decide_eq_true_eq] at hb
          simp only
          rw [if_pos (lt_of_le_of_ne hb (fun h => hne.1 (by rw [h])))]
          rfl
  pow_le {a b x y} h1 h2 h3 h4 := by
    have h1 : a = fin x := h1
    have h3 : b = fin y := h3
    subst h1 h3
    change ∃ z, powX (fin x) (fin y) = fin z ∧ _
    unfold powX
    split
    · exact ⟨1, rfl, by norm_num, le_rfl⟩
    · rename_i hne
      rw [not_or] at hne
      refine ⟨x ^ y, ?_, Real.rpow_nonneg (by linarith) _, Real.rpow_le_one_of_one_le_of_nonpos h2 h4⟩
      simp only [powR]
      rw [if_neg (fun h => hne.1 (by rw [h])), if_pos (by linarith)]

/-- In doubles the two directions are the same number. -/
theorem ForwardSpan.same_dir {b : Builder B64 n P} {tf' : B64} (H : ForwardSpan B64.x b)
    (H' : ForwardSpan B64.x { b with tfinal := tf' }) :
    (Fl.copysign 1.0 (tf' - b.t) : B64) = Fl.copysign 1.0 (b.tfinal - b.t) := by
  have h1 := H.dir B64.laws
  have h2 : (Fl.copysign 1.0 (tf' - b.t) : B64).x = fin 1 := H'.dir B64.laws
  have ext : ∀ x y : B64, x.x = y.x → x = y := by rintro ⟨x, _⟩ ⟨y, _⟩ h; cases h; rfl
  exact ext _ _ (h2.trans h1.symm)

/-- **C71** (DormandPrince5, in doubles). -/
theorem C71_double_dp5 {b : Builder B64 n P} (H : ForwardSpan B64.x b) {tf' : B64}
    (H' : ForwardSpan B64.x { b with tfinal := tf' }) (hle : Fl.le b.tfinal tf' = true) {s0 s0' s : DP5.St B64 n P}
    (hb : b.build DP5.alg = .ok s0) (hb' : Builder.build DP5.alg { b with tfinal := tf' } = .ok s0') {k : Nat}
    (hs : Steps DP5.alg none k s0 s)
    (hfar : ∀ j x, j < k → Steps DP5.alg none j s0 x → Fl.gt (x.t + 1.01 * x.dt - b.tfinal) 0.0 = false) :
    ∃ s', Steps DP5.alg none k s0' s' ∧ s'.view = { s.view with tfinal := tf' } :=
  C71_longer_span_dp5 B64.laws H H' hle (H.same_dir H') hb hb' hs hfar

/-- **C71** (Radau5, in doubles). -/
theorem C71_double_radau {b : Builder B64 n P} (H : ForwardSpan B64.x b) {tf' : B64}
    (H' : ForwardSpan B64.x { b with tfinal := tf' }) (hle : Fl.le b.tfinal tf' = true) {s0 s0' s : Radau.St B64 n P}
    (hb : b.build Radau.alg = .ok s0) (hb' : Builder.build Radau.alg { b with tfinal := tf' } = .ok s0') {k : Nat}
    (hs : Steps Radau.alg none k s0 s)
    (hfar : ∀ j x, j ≤ k → Steps Radau.alg none j s0 x →
      Fl.ge (x.t + x.dt * 1.0001 - b.tfinal) 0.0 = false ∧ x.dt ≠ b.tfinal - x.t) :
    ∃ s', Steps Radau.alg none k s0' s' ∧ s'.view = { s.view with tfinal := tf' } :=
  C71_longer_span_radau B64.laws H H' hle (H.same_dir H') hb hb' hs hfar

/-- In exact arithmetic the hypotheses about the time span say what one expects. -/
theorem ForwardSpan.exact {P : Type} {b : Builder X n P} {t0 tf : ℝ} (h1 : b.t = fin t0) (h2 : b.tfinal = fin tf)
    (h3 : b.dt = 1e-6) (h : t0 < tf) : ForwardSpan (fun x : X => x) b where
  t := ⟨t0, h1⟩
  tfinal := ⟨tf, h2⟩
  length := ⟨tf - t0, by rw [h1, h2, sub_fin]⟩
  lt := by rw [h1, h2, lt_fin, decide_eq_true_eq]; exact h
  dt := by rw [h3]; change decide _ = true; norm_num

theorem copysign_exact {t0 tf : ℝ} (h : t0 < tf) : (Fl.copysign 1.0 (fin tf - fin t0) : X) = fin 1 := by
  rw [sub_fin]
  change (if 0 ≤ tf - t0 then absX (fin _) else _) = _
  rw [if_pos (by linarith)]
  change fin |_| = _
  norm_num

/-! ### Examples -/

/-- With `max_steps` 0 the sample run records two points and ends with `MaxIters`. They are the first two of the three
points recorded with the default limit. -/
example : ∃ s0 s1 s0' s2 : DP5.St X 1 Unit,
    ((DP5.sampleBuilder 1.1e-6).sets [.max_steps 0]).build DP5.alg = .ok s0 ∧
    ((DP5.sampleBuilder 1.1e-6).sets [.max_steps 100000]).build DP5.alg = .ok s0' ∧
    IntegrateReturns DP5.alg none s0 s1 ∧ s1.sol.retcode = .MaxIters ∧
    IntegrateReturns DP5.alg none s0' s2 ∧ s2.sol.retcode = .Success ∧
    s1.sol.ts <+: s2.sol.ts ∧ s1.sol.ts.length = 2 ∧ s2.sol.ts.length = 3 := by
  obtain ⟨s0, s1, hb, h1, c1⟩ := DP5.sample_maxIters
  obtain ⟨r0, r1, r2, hb', g1, g2, c2, -, -, -⟩ := DP5.sample_run
  have i1 : IntegrateReturns DP5.alg none s0 s1 := (integrate_iff DP5.fuelMono).2 ⟨0, s0, .zero _, h1⟩
  have i2 : IntegrateReturns DP5.alg none r0 r2 := (integrate_iff DP5.fuelMono).2 ⟨1, r1, .succ (.zero _) g1, g2⟩
  have := (C70_max_steps_dp5 (DP5.sampleBuilder 1.1e-6) (Nat.zero_le 100000) hb hb').points s1 r2 i1 i2
  have e0 := (DP5.build_fields hb).1
  have e1 := (C07_one_point_per_step_dp5 h1).1
  have e0' := (DP5.build_fields hb').1
  have e1' := (C07_one_point_per_step_dp5 g1).1
  have e2' := (C07_one_point_per_step_dp5 g2).1
  exact ⟨s0, s1, r0, r2, hb, hb', i1, c1, i2, c2, this.1, by rw [e1, e0]; rfl, by rw [e2', e1', e0']; rfl⟩

/-- The first step of the sample run on `[0, 1.1e-6]` is also the first step of the run on `[0, 1]`. -/
example : ∃ s0 s1 s0' s1' : DP5.St X 1 Unit, (DP5.sampleBuilder 1.1e-6).build DP5.alg = .ok s0 ∧
    (DP5.sampleBuilder 1).build DP5.alg = .ok s0' ∧ Steps DP5.alg none 1 s0 s1 ∧ Steps DP5.alg none 1 s0' s1' ∧
    s1'.sol = s1.sol ∧ s1'.stats = s1.stats ∧ s1'.t = fin 1e-6 := by
  obtain ⟨s0, s1, s2, hb, h1, -, -, -, t1, -⟩ := DP5.sample_run
  obtain ⟨s0', hb'⟩ : ∃ s : DP5.St X 1 Unit, (DP5.sampleBuilder 1).build DP5.alg = .ok s := ⟨_, rfl⟩
  obtain ⟨s1', h2, h3⟩ := C71_longer_span_dp5 (b := DP5.sampleBuilder 1.1e-6) (tf' := fin 1) X.laws
    (.exact (t0 := 0) rfl rfl rfl (by norm_num)) (.exact (t0 := 0) (tf := 1) rfl rfl rfl (by norm_num))
    (by change decide _ = true; norm_num)
    ((copysign_exact (by norm_num)).trans (copysign_exact (t0 := 0) (tf := 1.1e-6) (by norm_num)).symm) hb hb'
    (.succ (.zero _) h1) (by
      intro j x hj hx
      have : j = 0 := by omega
      subst this
      rw [Steps.zero_eq rfl hx]
      have e : s0 = _ := (Res.ok.inj hb).symm
      rw [e]
      change decide (_ < _) = false
      simp only [decide_eq_false_iff_not, not_lt]
      change (0 : ℝ) + 1.01 * 1e-6 + -1.1e-6 ≤ 0.0
      norm_num)
  refine ⟨s0, s1, s0', s1', hb, hb', .succ (.zero _) h1, h2, ?_, ?_, ?_⟩
  · exact congrArg View.sol h3
  · exact congrArg View.stats h3
  · rw [← t1]; exact congrArg View.t h3

/-- The first step of `Radau5` for `u' = v` on `[0, 1]`. -/
theorem Radau.const_first (hn : n ≠ 0) (v u0 : _root_.Fin n → ℝ) (hv : ∀ i, |v i| ≤ 1) :
    ∃ s0 s1 : St X n Unit, (constBuilder v u0 0 1).build alg = .ok s0 ∧ StepReturns alg none s0 (some 1) s1 ∧
      s1.t = fin 1e-6 ∧ ∃ h, s1.dt = fin h ∧ 0 < h ∧ h ≤ 8e-6 := by
  obtain ⟨s0, hb⟩ : ∃ s0 : St X n Unit, (constBuilder v u0 0 1).build alg = .ok s0 := ⟨_, rfl⟩
  have T := const_timed v u0 0 1
  obtain ⟨φ, Q⟩ := quad_build (const_problem v u0 0 1) T (const_tol _ _ _ _) (by change 3 ≤ 7; norm_num) hb
  have I := T.idle hb
  have hst : s0.stats.steps = 0 := by rw [← Res.ok.inj hb]; rfl
  have hms : s0.opts.max_steps = 100000 := by rw [← Res.ok.inj hb]; rfl
  have hdec : s0.cache.decompose = true := by rw [← Res.ok.inj hb]
  have hl0 : s0.cache.last = false := by rw [← Res.ok.inj hb]
  have hd1 : (defaultClock 0 1 none).d = 1 := by norm_num [Clock.d, defaultClock]
  have hc0 : clampLast s0 = s0 := I.clamp_no hd1 (by norm_num [defaultClock])
  obtain ⟨d, s1, S1⟩ := Q.go (h := 1e-6) (hf := 1e-6) hn (fun _ _ => rfl) (fun _ _ => rfl) (by rw [hst, hms]; norm_num)
    (by rw [hc0]; exact I.step) (by change |(0:ℝ)| * _ < _; norm_num) (fun _ => rfl) (fun h => by rw [hdec] at h; simp at h)
    (lt_of_le_of_lt (const_norm (c := 1e-6) hn hv _ (by norm_num) (by norm_num) (by norm_num) (by norm_num)) (by norm_num))
  have c1 : s1.sol.retcode = .Continue := by
    rw [S1.code, hc0, hl0]; rfl
  have t1 : s1.t = fin 1e-6 := by
    rw [S1.time]
    change fin (0 + 1e-6) = _
    norm_num
  refine ⟨s0, s1, hb, stepReturns_none_iff.2 ⟨⟨1, S1.step⟩, ?_⟩, t1, ?_⟩
  · rw [c1, S1.steps, hst]; rfl
  · obtain ⟨h2, h', T⟩ | ⟨c, -⟩ := I.run_step Q.ready S1.step
    · have e2 : h2 = 1e-6 := by
        have := T.idle.time
        rw [t1, fin_inj] at this
        change (1e-6 : ℝ) = 0 + h2 at this
        linarith
      subst e2
      refine ⟨h', T.idle.step, ?_⟩
      obtain ⟨q, rej, q1, q2, -, hN⟩ := T.next c1
      have hq : (0.125:ℝ) ≤ q := by norm_num [defaultClock] at q1 ⊢; linarith
      have hq0 : (0:ℝ) < q := by linarith
      have hx : 0 < (defaultClock 0 1 none).proposal rej 1e-6 q ∧ (defaultClock 0 1 none).proposal rej 1e-6 q ≤ 8e-6 := by
        have h5 : 1e-6 / q ≤ (8e-6 : ℝ) := by rw [div_le_iff₀ hq0]; norm_num; linarith
        have h6 : (0:ℝ) < 1e-6 / q := by positivity
        simp only [Clock.proposal, hd1, one_mul, show (defaultClock 0 1 none).mx = none from rfl, capR, abs_of_pos h6]
        split
        · exact ⟨lt_min h6 (by norm_num [abs_of_pos]), (min_le_left _ _).trans h5⟩
        · exact ⟨h6, h5⟩
      cases hN with
      | toEnd h => exfalso; rw [hd1] at h; norm_num [defaultClock] at h hx; linarith
      | keep => norm_num
      | change => exact hx
    · exact absurd c1 c

/-- The first step of `Radau5` for `u' = 1` on `[0, 1]` is also the first step on `[0, 2]`. -/
example : ∃ s0 s1 s0' s1' : Radau.St X 1 Unit,
    (Radau.constBuilder (fun _ => 1) (fun _ => 0) 0 1).build Radau.alg = .ok s0 ∧
    (Radau.constBuilder (fun _ => 1) (fun _ => 0) 0 2).build Radau.alg = .ok s0' ∧
    Steps Radau.alg none 1 s0 s1 ∧ Steps Radau.alg none 1 s0' s1' ∧
    s1'.sol = s1.sol ∧ s1'.stats = s1.stats ∧ s1'.t = fin 1e-6 := by
  obtain ⟨s0, s1, hb, h1, t1, h, hh, h0, h8⟩ := Radau.const_first one_ne_zero (fun _ : Fin 1 => 1) (fun _ => 0) (by simp)
  obtain ⟨s0', hb'⟩ : ∃ s : Radau.St X 1 Unit,
    (Radau.constBuilder (fun _ => 1) (fun _ => 0) 0 2).build Radau.alg = .ok s := ⟨_, rfl⟩
  obtain ⟨s1', h2, h3⟩ := C71_longer_span_radau (b := Radau.constBuilder (fun _ => 1) (fun _ => 0) 0 1) (tf' := fin 2)
    X.laws (.exact (t0 := 0) rfl rfl rfl (by norm_num)) (.exact (t0 := 0) (tf := 2) rfl rfl rfl (by norm_num))
    (by change decide _ = true; norm_num)
    ((copysign_exact (by norm_num)).trans (copysign_exact (t0 := 0) (tf := 1) (by norm_num)).symm) hb hb'
    (.succ (.zero _) h1) (by
      have key : ∀ (x : Radau.St X 1 Unit) (t h : ℝ), x.t = fin t → x.dt = fin h → t + h * 1.0001 < 1 → t + h < 1 →
          Fl.ge (x.t + x.dt * 1.0001 - fin 1) 0.0 = false ∧ x.dt ≠ fin 1 - x.t := by
        intro x t h e1 e2 e3 e4
        rw [e1, e2, show (1.0001 : X) = fin 1.0001 from rfl, show (0.0 : X) = fin 0.0 from rfl, mul_fin, add_fin,
          sub_fin, sub_fin, ge_fin]
        constructor
        · rw [decide_eq_false_iff_not, not_le]; norm_num at *; linarith
        · intro h; injection h with h; linarith
      intro j x hj hx
      obtain rfl | rfl : j = 0 ∨ j = 1 := by omega
      · rw [Steps.zero_eq rfl hx]
        refine key s0 0 1e-6 ?_ ?_ (by norm_num) (by norm_num)
        · rw [← Res.ok.inj hb]; rfl
        · rw [← Res.ok.inj hb]; rfl
      · have : x = s1 := Steps.unique Radau.fuelMono hx (.succ (.zero _) h1)
        subst this
        exact key x 1e-6 h t1 hh (by norm_num at *; linarith) (by norm_num at *; linarith))
  refine ⟨s0, s1, s0', s1', hb, hb', .succ (.zero _) h1, h2, ?_, ?_, ?_⟩
  · exact congrArg View.sol h3
  · exact congrArg View.stats h3
  · rw [← t1]; exact congrArg View.t h3

end Cyphus
