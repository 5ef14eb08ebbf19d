import Verif.Proofs.Local
import Verif.Props.DoubleRadau
/-!
# C81: user code matters only where it is called

Level G, and double precision. No callback.
-/

namespace Cyphus
open X B64
set_option autoImplicit false
set_option linter.unusedSectionVars false

section
variable {F : Type} {n : ℕ} {P : Type} {alg : Algorithm F n P}

theorem Loc.step (hl : ∀ fuel, LocS (alg.step fuel)) {s s' : Integ F n P alg.Cache} {fuel : ℕ} {o : Option ℕ}
    (h : Integ.step alg none fuel s = .ok (s', o)) :
    Kept s s' ∧ ∀ g j, Same g j s s'.trace → Integ.step alg none fuel (sw g j s) = .ok (sw g j s', o) := by
  unfold Integ.step at h ⊢
  cases e : alg.step fuel s with
  | ok r =>
    rw [e] at h
    simp only [Res.bind, Res.ok.injEq, Prod.mk.injEq] at h
    obtain ⟨rfl, h⟩ := h
    refine ⟨(hl fuel).kept _ _ e, fun g j H => ?_⟩
    rw [(hl fuel).comm _ _ g j e H]
    simp only [Res.bind, ← h]
    rfl
  | panic => rw [e] at h; cases h
  | timeout => rw [e] at h; cases h

theorem Loc.steps (hl : ∀ fuel, LocS (alg.step fuel)) {k : ℕ} {s s' : Integ F n P alg.Cache} (h : Steps alg none k s s') :
    Kept s s' ∧ ∀ g j, Same g j s s'.trace → Steps alg none k (sw g j s) (sw g j s') := by
  induction h with
  | zero s => exact ⟨Kept.refl _, fun g j _ => .zero _⟩
  | succ _ h2 ih =>
    obtain ⟨fuel, h2⟩ := h2
    obtain ⟨k1, c1⟩ := ih
    obtain ⟨k2, c2⟩ := Loc.step hl h2
    exact ⟨k1.trans k2, fun g j H => .succ (c1 g j (H.mono k2.trace)) ⟨fuel, c2 g j (k1.same H)⟩⟩

theorem Loc.integrate (hl : ∀ fuel, LocS (alg.step fuel)) (fuel : ℕ) : ∀ {s s' : Integ F n P alg.Cache},
    Integ.integrate alg none fuel s = .ok s' →
    Kept s s' ∧ ∀ g j, Same g j s s'.trace → Integ.integrate alg none fuel (sw g j s) = .ok (sw g j s') := by
  induction fuel with
  | zero => intro s s' h; cases h
  | succ fuel ih =>
    intro s s' h
    unfold Integ.integrate at h
    cases e : Integ.step alg none (fuel + 1) s with
    | ok r =>
      obtain ⟨r, o⟩ := r
      obtain ⟨k1, c1⟩ := Loc.step hl e
      rw [e] at h
      cases o with
      | none =>
        simp only [Res.bind, Res.ok.injEq] at h
        subst h
        refine ⟨k1, fun g j H => ?_⟩
        unfold Integ.integrate
        rw [c1 g j H]
        rfl
      | some i =>
        simp only [Res.bind] at h
        obtain ⟨k2, c2⟩ := ih h
        refine ⟨k1.trans k2, fun g j H => ?_⟩
        unfold Integ.integrate
        rw [c1 g j (H.mono k2.trace)]
        exact c2 g j (k1.same H)
    | panic => rw [e] at h; cases h
    | timeout => rw [e] at h; cases h

end

section
variable {F : Type} {n : ℕ} {P : Type} [Add F] [Sub F] [Mul F] [Div F] [Neg F] [OfScientific F] [Fl F] [FlInf F]
variable {b : Builder F n P} {g : Rhs F n P} {j : Option (JacFn F n P)} {k : ℕ}

theorem DP5.build_same {s0 : DP5.St F n P} (hb : b.build DP5.alg = .ok s0) :
    (∀ L, Spec.SameAt b.params b.dudt g b.dfdu j L → Same g j s0 L) ∧
    (Same g j s0 s0.trace → Builder.build DP5.alg { b with dudt := g, dfdu := j } = .ok (sw g j s0)) := by
  have e := (Res.ok.inj hb).symm
  subst e
  refine ⟨fun L H => H, fun H => ?_⟩
  have h := H.rhs b.t b.u (List.mem_singleton.2 rfl)
  simp only [Builder.build, DP5.new_cache, Res.bind, sw] at h ⊢
  rw [h]

theorem Radau.build_same {s0 : Radau.St F n P} (hb : b.build Radau.alg = .ok s0) :
    (∀ L, Spec.SameAt b.params b.dudt g b.dfdu j L → Same g j s0 L) ∧
    (Same g j s0 s0.trace → Builder.build Radau.alg { b with dudt := g, dfdu := j } = .ok (sw g j s0)) := by
  have e := (Res.ok.inj hb).symm
  subst e
  refine ⟨fun L H => H, fun H => ?_⟩
  have h := H.rhs b.t b.u (List.mem_cons_self)
  have h' := jacobian_same (f := b.dudt) (jf := b.dfdu) (df := fun _ _ => (0.0 : F)) (H.mono (List.subset_cons_self _ _))
  simp only [Builder.build, Radau.new_cache, Res.bind, sw] at h h' ⊢
  rw [h, h']

/-- **C81** `DormandPrince5` uses the right-hand side at the recorded calls only: replace it by a function with the same values
at the calls made by some run, and the run remains the same. -/
theorem C81_local_dp5 {s : DP5.St F n P} (hg : ∀ t u, Call.rhs t u ∈ s.trace → ∀ buf, g b.params buf u t = b.dudt b.params buf u t) :
    (ReachedBy DP5.alg b k s → ReachedBy DP5.alg { b with dudt := g } k { s with dudt := g }) ∧
    ∀ s0, b.build DP5.alg = .ok s0 → IntegrateReturns DP5.alg none s0 s →
      ∃ s0', Builder.build DP5.alg { b with dudt := g } = .ok s0' ∧ IntegrateReturns DP5.alg none s0' { s with dudt := g } := by
  have H : Spec.SameAt b.params b.dudt g b.dfdu b.dfdu s.trace :=
    ⟨hg, rfl, fun a c ha hc t u _ buf => by rw [ha] at hc; cases hc; rfl⟩
  constructor
  · rintro ⟨s0, hb, hs⟩
    obtain ⟨k1, c1⟩ := Loc.steps (alg := DP5.alg) DP5.step_loc hs
    obtain ⟨k0, c0⟩ := DP5.build_same (g := g) (j := b.dfdu) hb
    have e : sw g b.dfdu s = { s with dudt := g } := by
      have : s.dfdu = b.dfdu := k1.dfdu.trans (by rw [← Res.ok.inj hb])
      rw [← this]; rfl
    exact ⟨_, c0 (k0 _ (H.mono k1.trace)), e ▸ c1 g b.dfdu (k0 _ H)⟩
  · rintro s0 hb ⟨fuel, hs⟩
    obtain ⟨k1, c1⟩ := Loc.integrate (alg := DP5.alg) DP5.step_loc fuel hs
    obtain ⟨k0, c0⟩ := DP5.build_same (g := g) (j := b.dfdu) hb
    have e : sw g b.dfdu s = { s with dudt := g } := by
      have : s.dfdu = b.dfdu := k1.dfdu.trans (by rw [← Res.ok.inj hb])
      rw [← this]; rfl
    exact ⟨_, c0 (k0 _ (H.mono k1.trace)), fuel, e ▸ c1 g b.dfdu (k0 _ H)⟩

/-- **C81** `Radau5` uses the right-hand side and the user's Jacobian at the recorded calls only. -/
theorem C81_local_radau {s : Radau.St F n P} (hg : Spec.SameAt b.params b.dudt g b.dfdu j s.trace) :
    (ReachedBy Radau.alg b k s → ReachedBy Radau.alg { b with dudt := g, dfdu := j } k { s with dudt := g, dfdu := j }) ∧
    ∀ s0, b.build Radau.alg = .ok s0 → IntegrateReturns Radau.alg none s0 s →
      ∃ s0', Builder.build Radau.alg { b with dudt := g, dfdu := j } = .ok s0' ∧
        IntegrateReturns Radau.alg none s0' { s with dudt := g, dfdu := j } := by
  constructor
  · rintro ⟨s0, hb, hs⟩
    obtain ⟨k1, c1⟩ := Loc.steps (alg := Radau.alg) Radau.step_loc hs
    obtain ⟨k0, c0⟩ := Radau.build_same (g := g) (j := j) hb
    exact ⟨_, c0 (k0 _ (hg.mono k1.trace)), c1 g j (k0 _ hg)⟩
  · rintro s0 hb ⟨fuel, hs⟩
    obtain ⟨k1, c1⟩ := Loc.integrate (alg := Radau.alg) Radau.step_loc fuel hs
    obtain ⟨k0, c0⟩ := Radau.build_same (g := g) (j := j) hb
    exact ⟨_, c0 (k0 _ (hg.mono k1.trace)), fuel, c1 g j (k0 _ hg)⟩

end

/-! ### Double precision: user code outside of the time span is irrelevant -/

section
variable {n : ℕ} {P : Type} {b : Builder B64 n P} {g : Rhs B64 n P} {j : Option (JacFn B64 n P)} {k : ℕ}

/-- **C81** In double precision, right-hand sides which agree inside the time span give the same `DormandPrince5` runs. -/
theorem C81_outside_span_dp5 (H : DoubleSpan b) (hS : DP5.FloatSane b.opts)
    (hg : ∀ t, Fl.le b.t t = true → Fl.le t b.tfinal = true → ∀ buf u, g b.params buf u t = b.dudt b.params buf u t) {s : DP5.St B64 n P} :
    (ReachedBy DP5.alg b k s → ReachedBy DP5.alg { b with dudt := g } k { s with dudt := g }) ∧
    ∀ s0, b.build DP5.alg = .ok s0 → IntegrateReturns DP5.alg none s0 s →
      ∃ s0', Builder.build DP5.alg { b with dudt := g } = .ok s0' ∧ IntegrateReturns DP5.alg none s0' { s with dudt := g } := by
  have key {m : ℕ} {s0 : DP5.St B64 n P} (hb : b.build DP5.alg = .ok s0) (hs : Steps DP5.alg none m s0 s) :
      ∀ t u, Call.rhs t u ∈ s.trace → ∀ buf, g b.params buf u t = b.dudt b.params buf u t := by
    intro t u hc buf
    obtain ⟨h1, h2⟩ := (C63_double_run_dp5 H hS hb hs).2.2 _ hc
    exact hg t h1 h2 buf u
  refine ⟨fun h => ?_, fun s0 hb hs => ?_⟩
  · obtain ⟨s0, hb, hs⟩ := h
    exact (C81_local_dp5 (key hb hs)).1 ⟨s0, hb, hs⟩
  · obtain ⟨m, s1, h1, h2⟩ := (integrate_iff DP5.fuelMono).1 hs
    exact (C81_local_dp5 (k := 0) (key hb (.succ (alg := DP5.alg) h1.steps h2))).2 s0 hb hs

/-- **C81** In double precision, right-hand sides and Jacobians which agree inside the time span give the same `Radau5` runs. -/
theorem C81_outside_span_radau (H : DoubleSpan b) (hS : Radau.FloatSane b.opts)
    (hg : ∀ t, Fl.le b.t t = true → Fl.le t b.tfinal = true → ∀ u, Spec.SameAt b.params b.dudt g b.dfdu j [Call.rhs t u, Call.jacU t u])
    {s0 s : Radau.St B64 n P} (hb : b.build Radau.alg = .ok s0) (hs : IntegrateReturns Radau.alg none s0 s) :
    ∃ s0', Builder.build Radau.alg { b with dudt := g, dfdu := j } = .ok s0' ∧
      IntegrateReturns Radau.alg none s0' { s with dudt := g, dfdu := j } := by
  refine (C81_local_radau (k := 0) ?_).2 s0 hb hs
  have h := (C64_double_run_radau H hS hb (.inr hs)).2.2
  refine ⟨fun t u hc buf => ?_, ?_, fun a c ha hc' t u hc buf => ?_⟩
  · obtain ⟨h1, h2⟩ := h _ hc
    exact (hg t h1 h2 u).rhs t u (by simp) buf
  · have h0 : Call.rhs b.t b.u ∈ s.trace := by
      obtain ⟨fuel, hs⟩ := hs
      refine (Loc.integrate (alg := Radau.alg) Radau.step_loc fuel hs).1.trace ?_
      rw [← Res.ok.inj hb]
      exact List.mem_cons_self
    obtain ⟨h1, h2⟩ := h _ h0
    exact (hg _ h1 h2 b.u).user
  · obtain ⟨h1, h2⟩ := h _ hc
    exact (hg t h1 h2 u).jac a c ha hc' t u (by simp) buf

end

/-- `u' = 0` until `tfinal = 2 ^ -20`, undefined afterwards. -/
noncomputable def zeroUntil : Rhs B64 1 Unit := fun _ _ _ t _ => if Fl.le t (dbl 1 (-20)) then 0.0 else 0.0 / 0.0

/-- A right-hand side undefined beyond `tfinal` does not disturb the run of `DormandPrince5`. -/
example : ∃ s0 s : DP5.St B64 1 Unit, Builder.build DP5.alg { zero64 (dbl 0 0) (dbl 1 (-20)) with dudt := zeroUntil } = .ok s0 ∧
    IntegrateReturns DP5.alg none s0 s ∧ s.sol.retcode = .Success ∧ s.sol.ts.length = 2 := by
  have hx : (dbl 0 0).x = fin 0 := by change fin _ = _; norm_num
  have hy : (dbl 1 (-20)).x = fin (2 ^ (-20 : ℤ)) := by change fin _ = _; norm_num
  obtain ⟨s0, s, hb, hi, hc, -, e⟩ := DP5.zero64_run (c := 2 ^ (-25 : ℤ)) hx hy (by norm_num) zero64_span.length
    (rep_int_pow 33 (-25)) (rep_pow (-25)) (by norm_num) (by norm_num) (by norm_num)
  obtain ⟨s0', hb', hi'⟩ := (C81_outside_span_dp5 (k := 0) (g := zeroUntil) zero64_span DP5.default_sane64
    (fun t _ h buf u => by
      funext i
      change (if Fl.le t (dbl 1 (-20)) = true then (0.0 : B64) else 0.0 / 0.0) = 0.0
      exact if_pos h)).2 s0 hb hi
  exact ⟨s0', _, hb', hi', hc, by change s.sol.ts.length = 2; rw [e]; rfl⟩

/-- Nor that of `Radau5`; here the Jacobian, too, is undefined beyond `tfinal`. -/
example : ∃ s0 s : Radau.St B64 1 Unit, Builder.build Radau.alg { zero64r (dbl 0 0) (dbl 1 (-20)) with
      dudt := zeroUntil, dfdu := some fun p _ u t _ => zeroUntil p u u t } = .ok s0 ∧
    IntegrateReturns Radau.alg none s0 s ∧ s.sol.retcode = .Success ∧ s.sol.ts.length = 2 := by
  have hx : (dbl 0 0).x = fin 0 := by change fin _ = _; norm_num
  have hy : (dbl 1 (-20)).x = fin (2 ^ (-20 : ℤ)) := by change fin _ = _; norm_num
  have hd : (dbl 1 (-20) - dbl 0 0).x = fin (2 ^ (-20 : ℤ)) := by
    rw [sub_x, hx, hy, sub_fin, sub_zero, round_fin]; exact round64_rep (rep_pow (-20))
  obtain ⟨s0, s, hb, hi, hc, -, e⟩ := Radau.zero64r_run (a := 33 * 2 ^ (-25 : ℤ)) hx hy (by norm_num) (by norm_num)
    ⟨_, hd, by norm_num, by norm_num⟩ (by simpa using rep_int_pow 33 (-25)) (by norm_num) (by norm_num)
  have key (t : B64) (h : Fl.le t (dbl 1 (-20)) = true) (p : Unit) (buf u : Vec 1 B64) : zeroUntil p buf u t = fun _ => 0.0 := by
    funext i
    change (if Fl.le t (dbl 1 (-20)) = true then (0.0 : B64) else 0.0 / 0.0) = 0.0
    rw [if_pos h]
  obtain ⟨s0', hb', hi'⟩ := C81_outside_span_radau (g := zeroUntil) (j := some fun p _ u t _ => zeroUntil p u u t) zero64r_span
    Radau.default_sane64 (fun t _ h u => by
      refine ⟨fun t' u' hm buf => ?_, rfl, fun a c ha hc t' u' hm buf => ?_⟩
      · simp only [List.mem_cons, Call.rhs.injEq, reduceCtorEq, List.not_mem_nil, or_false] at hm
        rw [hm.1, key t h]; rfl
      · simp only [List.mem_cons, Call.jacU.injEq, reduceCtorEq, List.not_mem_nil, or_false, false_or] at hm
        cases ha; cases hc
        rw [hm.1]
        funext i
        exact key t h _ _ _) hb hi
  exact ⟨s0', _, hb', hi', hc, by change s.sol.ts.length = 2; rw [e]; rfl⟩

end Cyphus
