import Verif.Proofs.RadauPass
import Verif.Spec.RadauAlgorithm
/-!
# The Newton iteration of `Radau5` follows the specified algorithm
-/

namespace Cyphus
set_option autoImplicit false
set_option linter.unusedSectionVars false
noncomputable section

namespace Spec.Radau5
variable {ε η₁ φ θ₀ : ℝ} {N m k : ℕ} {d d' : ℕ → ℝ}

theorem rate_congr (h : ∀ k, 1 ≤ k → k ≤ m → d k = d' k) (h2 : 2 ≤ k) (hk : k ≤ m) : rate ε d k = rate ε d' k := by
  unfold rate
  by_cases h3 : k = 2
  · subst h3
    rw [if_pos rfl, if_pos rfl, h 2 (by omega) hk, h 1 (by omega) (by omega)]
  · rw [if_neg h3, if_neg h3, h k (by omega) hk, h (k - 1) (by omega) (by omega), h (k - 2) (by omega) (by omega)]

theorem rated_le : rated N k ≤ k := min_le_left _ _

theorem eta_congr (h : ∀ k, 1 ≤ k → k ≤ m → d k = d' k) (hk : k ≤ m) : eta ε η₁ N d k = eta ε η₁ N d' k := by
  unfold eta
  split
  · rfl
  · rw [rate_congr h (by omega) (rated_le.trans hk)]

theorem theta_congr (h : ∀ k, 1 ≤ k → k ≤ m → d k = d' k) (hk : k ≤ m) : theta ε θ₀ N d k = theta ε θ₀ N d' k := by
  unfold theta
  split
  · rfl
  · rw [rate_congr h (by omega) (rated_le.trans hk)]

theorem predicted_congr (h : ∀ k, 1 ≤ k → k ≤ m → d k = d' k) (h2 : 2 ≤ k) (hk : k ≤ m) :
    predicted ε η₁ φ N d k = predicted ε η₁ φ N d' k := by
  unfold predicted
  rw [eta_congr h hk, rate_congr h h2 hk, h k (by omega) hk]

theorem GoesOn.congr (h : ∀ k, 1 ≤ k → k ≤ m → d k = d' k) (h1 : 1 ≤ k) (hk : k ≤ m) (H : GoesOn ε η₁ φ N d k) :
    GoesOn ε η₁ φ N d' k := by
  refine ⟨fun h2 h3 => ?_, ?_⟩
  · rw [← rate_congr h h2 hk, ← predicted_congr h h2 hk]
    exact H.1 h2 h3
  · rw [← eta_congr h hk, ← h k h1 hk]
    exact H.2

/-- In a pass without a test the factors do not change. -/
theorem rated_skip (hk : k + 1 ≤ N) (h : ¬ (2 ≤ k + 1 ∧ k + 1 < N)) : rated N (k + 1) = rated N k ∨ rated N (k + 1) ≤ 1 ∧ rated N k ≤ 1 := by
  unfold rated
  omega

theorem eta_skip (hk : k + 1 ≤ N) (h : ¬ (2 ≤ k + 1 ∧ k + 1 < N)) : eta ε η₁ N d (k + 1) = eta ε η₁ N d k := by
  unfold eta
  obtain h1 | ⟨h1, h2⟩ := rated_skip hk h
  · rw [h1]
  · rw [if_pos h1, if_pos h2]

theorem theta_skip (hk : k + 1 ≤ N) (h : ¬ (2 ≤ k + 1 ∧ k + 1 < N)) : theta ε θ₀ N d (k + 1) = theta ε θ₀ N d k := by
  unfold theta
  obtain h1 | ⟨h1, h2⟩ := rated_skip hk h
  · rw [h1]
  · rw [if_pos h1, if_pos h2]

theorem rated_self (h : 2 ≤ k ∧ k < N) : rated N k = k := by
  unfold rated
  omega

theorem eta_self (h : 2 ≤ k ∧ k < N) : eta ε η₁ N d k = rate ε d k / (1 - rate ε d k) := by
  unfold eta
  rw [rated_self h, if_neg (by omega)]

theorem theta_self (h : 2 ≤ k ∧ k < N) : theta ε θ₀ N d k = rate ε d k := by
  unfold theta
  rw [rated_self h, if_neg (by omega)]

end Spec.Radau5

namespace Radau
open X Spec.Radau5
variable {n : ℕ} {P : Type}

/-- The environment of a problem. -/
abbrev penv (A : Problem n) (V : Submodule ℝ (_root_.Fin n → ℝ)) (u₀ : _root_.Fin n → ℝ) : NEnv n := ⟨A.f, A.jac, V, u₀⟩

/-- The coefficients are those of the code. -/
structure Coded (A : Problem n) : Prop where
  M : A.M = codeTransform
  c : A.c = codeC
  ε : (Fl.eps : X) = fin A.ε
  ε0 : 0 < A.ε
  n0 : n ≠ 0
  a0 : 0 < A.a
  r0 : 0 ≤ A.r
  φ0 : A.φ ≠ 0

/-- The options are those of the problem. -/
structure Par (A : Problem n) (o : Opts X) : Prop where
  N : o.max_newt_iter = A.N
  φ : o.fnewt = fin A.φ
  θ₀ : o.theta = fin A.θ₀
  a : o.abstol = fin A.a
  r : o.reltol = fin A.r
  ext : o.use_ext_col = A.ext
  pred : o.modern_pred = A.pred

/-- The state inside the Newton iteration after `m` passes. -/
structure InLoop (A : Problem n) (V : Submodule ℝ (_root_.Fin n → ℝ)) (u₀ : _root_.Fin n → ℝ) (fwd : Prop) (σ : State n) (x : Trial n)
    (m : ℕ) (g y Δ : ℕ → _root_.Fin 3 → _root_.Fin n → ℝ) (s : St X n P) (dyn : X) : Prop where
  num : Num (penv A V u₀) fwd s
  good : Good x.hm x.Jm (facsOf s)
  jok : JOk (penv A V u₀) fwd x.Jm
  linked : Linked s
  time : s.t = fin σ.t
  step : s.dt = fin x.h
  state : s.u = fv σ.u
  scal : s.cache.scal = fun i => fin A.a + fin A.r * Fl.abs (fin (σ.u i))
  par : Par A s.opts
  newt : s.cache.newt = m
  le : m ≤ A.N
  f1 : s.cache.f1 = fv (g m 0)
  f2 : s.cache.f2 = fv (g m 1)
  f3 : s.cache.f3 = fv (g m 2)
  z1 : s.cache.z1 = fv (y m 0)
  z2 : s.cache.z2 = fv (y m 1)
  z3 : s.cache.z3 = fv (y m 2)
  passes : Passes A σ x m g y Δ
  goes : ∀ k, 1 ≤ k → k ≤ m → GoesOn A.ε (A.eta₁ x) A.φ A.N (norms A σ Δ) k
  faccon : s.cache.faccon = fin (eta A.ε (A.eta₁ x) A.N (norms A σ Δ) m)
  theta : s.cache.theta = fin (theta A.ε |A.θ₀| A.N (norms A σ Δ) m)
  dyn : 1 ≤ m → dyn = fin (max (norms A σ Δ m) A.ε)
  thq : 2 ≤ m → m < A.N → s.cache.thqold = fin (norms A σ Δ m / max (norms A σ Δ (m - 1)) A.ε)
  caljac : s.cache.caljac = false
  dfdu : s.cache.dfdu = fmat x.J

/-- The result of the iteration. -/
structure Looped (A : Problem n) (σ : State n) (x : Trial n) (s' : St X n P) (b : Bool) : Prop where
  caljac : s'.cache.caljac = false
  conv : b = true → ∃ m z θ η, Iterates A σ x m z θ η .converged ∧ s'.cache.newt = m ∧ s'.cache.z1 = fv (z 0) ∧
    s'.cache.z2 = fv (z 1) ∧ s'.cache.z3 = fv (z 2) ∧ s'.cache.faccon = fin η ∧ s'.cache.theta = fin θ ∧ s'.cache.dfdu = fmat x.J
  fail : b = false → ∃ m z θ η, s'.cache.faccon = fin η ∧
    ((Iterates A σ x m z θ η .halved ∧ s'.dt = fin (x.h / 2) ∧ s'.cache.dfdu = fmat (A.jac σ.t σ.u)) ∨
     ∃ w, Iterates A σ x m z θ η (.slowed w) ∧ s'.dt = fin (x.h * w) ∧ s'.cache.dfdu = fmat x.J)

section
variable {A : Problem n} {V : Submodule ℝ (_root_.Fin n → ℝ)} {u₀ : _root_.Fin n → ℝ} {fwd : Prop} {σ : State n} {x : Trial n}
  {m : ℕ} {g y Δ : ℕ → _root_.Fin 3 → _root_.Fin n → ℝ} {s : St X n P} {dyn : X}

theorem norms_nonneg (Δ : ℕ → _root_.Fin 3 → _root_.Fin n → ℝ) (k : ℕ) : 0 ≤ norms A σ Δ k := Real.sqrt_nonneg _

theorem rate_nonneg (ε0 : 0 < A.ε) (Δ : ℕ → _root_.Fin 3 → _root_.Fin n → ℝ) (k : ℕ) : 0 ≤ rate A.ε (norms A σ Δ) k := by
  unfold rate
  split
  · exact div_nonneg (norms_nonneg _ _) (le_max_of_le_right ε0.le)
  · exact Real.sqrt_nonneg _

/-- A pass of the iteration. -/
theorem InLoop.pass (H : InLoop A V u₀ fwd σ x m g y Δ s dyn) (hA : Coded A) : ∃ Δn zn,
    Passes A σ x (m + 1) (Function.update g (m + 1) fun k i => g m k i + Δn k i) (Function.update y (m + 1) zn)
      (Function.update Δ m Δn) ∧ newtonNorm (solved s) = fin (Spec.newtonNorm A.a A.r σ.u Δn) ∧
    ∀ s' : St X n P, (s'.cache.f1 = (solved s).cache.f1 ∧ s'.cache.f2 = (solved s).cache.f2 ∧
        s'.cache.f3 = (solved s).cache.f3 ∧ s'.cache.z1 = (solved s).cache.z1 ∧ s'.cache.z2 = (solved s).cache.z2 ∧
        s'.cache.z3 = (solved s).cache.z3) → (newtonUpdate s').cache.z1 = fv (zn 0) ∧
        (newtonUpdate s').cache.z2 = fv (zn 1) ∧ (newtonUpdate s').cache.z3 = fv (zn 2) ∧
        (newtonUpdate s').cache.f1 = fv (fun i => g m 0 i + Δn 0 i) ∧ (newtonUpdate s').cache.f2 = fv (fun i => g m 1 i + Δn 1 i) ∧
        (newtonUpdate s').cache.f3 = fv (fun i => g m 2 i + Δn 2 i) := by
  obtain ⟨u', g0, y0, Δn, zn, hu', hz, d1, d2, d3, pass, b1, b2, b3, b4, b5, b6⟩ := H.num.pass H.good H.time H.step H.linked
  obtain rfl : u' = σ.u := fv_inj (hu'.symm.trans H.state)
  obtain rfl : g0 = g m := by
    funext k
    fin_cases k
    exacts [fv_inj (b1.symm.trans H.f1), fv_inj (b2.symm.trans H.f2), fv_inj (b3.symm.trans H.f3)]
  obtain rfl : y0 = y m := by
    funext k
    fin_cases k
    exacts [fv_inj (b4.symm.trans H.z1), fv_inj (b5.symm.trans H.z2), fv_inj (b6.symm.trans H.z3)]
  refine ⟨Δn, zn, ⟨?_, ?_, ?_, ?_, H.passes.step, H.passes.factored⟩, newtonNorm_fin hA.a0 hA.r0 hA.n0 H.scal d1 d2 d3, ?_⟩
  · rw [Function.update_of_ne (by omega)]
    exact H.passes.start
  · rw [Function.update_of_ne (by omega), Function.update_of_ne (by omega)]
    exact H.passes.transf
  · intro j hj
    rw [Function.update_of_ne (by omega), Function.update_of_ne (a := j) (f := y) (by omega)]
    by_cases hjm : j = m
    · subst hjm
      rw [Function.update_self, Function.update_self, hA.M, hA.c]
      exact pass
    · rw [Function.update_of_ne hjm, Function.update_of_ne (by omega)]
      exact H.passes.pass j (by omega)
  · intro j hj
    rw [Function.update_of_ne (a := j) (f := g) (by omega)]
    by_cases hjm : j = m
    · subst hjm
      rw [Function.update_self, Function.update_self]
    · rw [Function.update_of_ne (by omega), Function.update_of_ne hjm]
      exact H.passes.add j (by omega)
  · rintro s' hs
    obtain ⟨w1, w2, w3⟩ := hz s' hs
    obtain ⟨v1, v2, v3, v4, v5, v6⟩ := hs
    refine ⟨w1, w2, w3, ?_, ?_, ?_⟩
    · simp only [newtonUpdate, v1, v4, d1]
      rw [show (solved s).cache.f1 = s.cache.f1 from rfl, H.f1]; rfl
    · simp only [newtonUpdate, v2, v5, d2]
      rw [show (solved s).cache.f2 = s.cache.f2 from rfl, H.f2]; rfl
    · simp only [newtonUpdate, v3, v6, d3]
      rw [show (solved s).cache.f3 = s.cache.f3 from rfl, H.f3]; rfl

theorem norms_update (Δn : _root_.Fin 3 → _root_.Fin n → ℝ) {k : ℕ} (h1 : 1 ≤ k) (hk : k ≤ m) :
    norms A σ Δ k = norms A σ (Function.update Δ m Δn) k := by
  unfold norms
  rw [Function.update_of_ne (by omega)]

theorem norms_last (Δn : _root_.Fin 3 → _root_.Fin n → ℝ) :
    norms A σ (Function.update Δ m Δn) (m + 1) = Spec.newtonNorm A.a A.r σ.u Δn := by
  unfold norms
  rw [Nat.add_sub_cancel, Function.update_self]

theorem halveStep_vals {t : ℝ} {h : ℝ} {v : _root_.Fin n → ℝ} {E : NEnv n} (N : Num E fwd s) (hc : s.cache.caljac = false) (ht : s.t = fin t) (hu : s.u = fv v)
    (hh : s.dt = fin h) : (halveStep s).dt = fin (h / 2) ∧ (halveStep s).cache.dfdu = fmat (E.jac t v) ∧
      (halveStep s).cache.caljac = false ∧ (halveStep s).cache.faccon = s.cache.faccon := by
  simp only [halveStep, hc, Bool.not_false, if_true]
  refine ⟨?_, ?_, rfl, rfl⟩
  · change s.dt * 0.5 = _
    rw [hh, X.sci, mul_fin]
    congr 1
    norm_num
    ring
  · change (jacobian_u s.dudt s.dfdu s.cache.dfdu s.u s.t s.params).1 = _
    rw [hu, ht, N.jacs]

theorem slowStep_vals {h : ℝ} {q : ℝ} {N : ℕ} (hc : s.cache.caljac = false) (hh : s.dt = fin h) (hN : s.opts.max_newt_iter = N)
    (hn : s.cache.newt < N) (hq : 1 ≤ q) : (slowStep s (fin q)).dt = fin (h * (0.8 * min 20 q ^ (-1 / (N + 3 - s.cache.newt) : ℝ))) ∧
      (slowStep s (fin q)).cache.dfdu = s.cache.dfdu ∧ (slowStep s (fin q)).cache.caljac = false ∧
      (slowStep s (fin q)).cache.faccon = s.cache.faccon := by
  have hk : (((4 + s.opts.max_newt_iter - 1 - s.cache.newt : ℕ)) : ℝ) = N + 3 - s.cache.newt := by
    rw [hN, eq_sub_iff_add_eq]
    have : 4 + N - 1 - s.cache.newt + s.cache.newt = N + 3 := by omega
    exact_mod_cast this
  have hk' : (N + 3 - s.cache.newt : ℝ) ≠ 0 := by
    have : (s.cache.newt : ℝ) < N := by exact_mod_cast hn
    linarith
  have hq2 : (1:ℝ) ≤ min 20 q := le_min (by norm_num) hq
  have hq1 : Fl.max (1e-4 : X) (Fl.min 20.0 (fin q)) = fin (min 20 q) := by
    rw [X.sci, X.sci, min_fin, max_fin]
    have : (20.0 : ℝ) = 20 := by norm_num
    rw [this, max_eq_right (le_trans (by norm_num) hq2)]
  have e1 : (0.8 : X) * Fl.powf (Fl.max 1e-4 (Fl.min 20.0 (fin q)))
      (-1.0 / Fl.ofNat (4 + s.opts.max_newt_iter - 1 - s.cache.newt)) = fin (0.8 * min 20 q ^ (-1 / (N + 3 - s.cache.newt) : ℝ)) := by
    rw [hq1, ofNat_fin, hk, show (-1.0 : X) = fin (-1.0) from rfl, div_fin hk', powf_fin (by linarith), X.sci, mul_fin]
    norm_num
  simp only [slowStep, hc]
  rw [e1, if_neg (by simp)]
  exact ⟨by change s.dt * fin _ = _; rw [hh]; rfl, rfl, rfl, rfl⟩

/-- The end of a pass. -/
def afterCheck (fuel : ℕ) (d : X) (p : St X n P × Bool) : Res (St X n P × Bool) :=
  if p.2 then .ok (p.1, false) else if Fl.le ((newtonUpdate p.1).cache.faccon * d) (newtonUpdate p.1).opts.fnewt then
    .ok (newtonUpdate p.1, true) else newtonLoop fuel (newtonUpdate p.1) (Fl.max d Fl.eps)

theorem newtonLoop_eq (fuel : ℕ) (s : St X n P) (dyn : X) : newtonLoop (fuel + 1) s dyn =
    if s.cache.newt ≥ s.opts.max_newt_iter then .ok (halveStep s, false) else
      afterCheck fuel (newtonNorm (solved s)) (newtonCheck (solved s) (newtonNorm (solved s)) dyn) := rfl

/-- A pass which is not abandoned. -/
theorem InLoop.after (hA : Coded A) {fuel : ℕ} {s' s1 : St X n P} {b : Bool} {d : ℕ → ℝ} {Δn zn : _root_.Fin 3 → _root_.Fin n → ℝ}
    (H : InLoop A V u₀ fwd σ x m g y Δ s dyn)
    (ih : ∀ {m : ℕ} {g y Δ : ℕ → _root_.Fin 3 → _root_.Fin n → ℝ} {s : St X n P} {dyn : X}, InLoop A V u₀ fwd σ x m g y Δ s dyn →
      newtonLoop fuel s dyn = .ok (s', b) → Looped A σ x s' b)
    (hp : Passes A σ x (m + 1) (Function.update g (m + 1) fun k i => g m k i + Δn k i) (Function.update y (m + 1) zn)
      (Function.update Δ m Δn))
    (hupd : (newtonUpdate s1).cache.z1 = fv (zn 0) ∧
        (newtonUpdate s1).cache.z2 = fv (zn 1) ∧ (newtonUpdate s1).cache.z3 = fv (zn 2) ∧
        (newtonUpdate s1).cache.f1 = fv (fun i => g m 0 i + Δn 0 i) ∧ (newtonUpdate s1).cache.f2 = fv (fun i => g m 1 i + Δn 1 i) ∧
        (newtonUpdate s1).cache.f3 = fv (fun i => g m 2 i + Δn 2 i))
    (hd : d = norms A σ (Function.update Δ m Δn)) (hN : m + 1 ≤ A.N)
    (goes : ∀ k, 1 ≤ k → k < m + 1 → GoesOn A.ε (A.eta₁ x) A.φ A.N d k)
    (hnum : Num (penv A V u₀) fwd s1) (hfac : facsOf s1 = facsOf s) (e1 : s1.t = s.t) (e2 : s1.dt = s.dt) (e3 : s1.u = s.u)
    (e4 : s1.cache.scal = s.cache.scal) (e5 : s1.opts = s.opts) (e6 : s1.cache.newt = m + 1) (e7 : s1.cache.caljac = false)
    (e8 : s1.cache.dfdu = s.cache.dfdu) (hhe : Healthy A.ε (A.eta₁ x) A.φ A.N d (m + 1))
    (e9 : s1.cache.faccon = fin (eta A.ε (A.eta₁ x) A.N d (m + 1)))
    (e10 : s1.cache.theta = fin (Spec.Radau5.theta A.ε |A.θ₀| A.N d (m + 1)))
    (e11 : 2 ≤ m + 1 → m + 1 < A.N → s1.cache.thqold = fin (d (m + 1) / max (d m) A.ε))
    (hrun : afterCheck fuel (fin (d (m + 1))) (s1, false) = .ok (s', b)) : Looped A σ x s' b := by
  obtain ⟨w1, w2, w3, w4, w5, w6⟩ := hupd
  have ef : (newtonUpdate s1).cache.faccon * fin (d (m + 1)) = fin (eta A.ε (A.eta₁ x) A.N d (m + 1) * d (m + 1)) := by
    rw [show (newtonUpdate s1).cache.faccon = s1.cache.faccon from rfl, e9, mul_fin]
  simp only [afterCheck, Bool.false_eq_true, if_false] at hrun
  rw [ef, show (newtonUpdate s1).opts = s.opts from e5, H.par.φ, le_fin] at hrun
  split at hrun
  · rename_i hle
    have hle := of_decide_eq_true hle
    obtain ⟨rfl, rfl⟩ := Prod.mk.inj (Res.ok.inj hrun)
    refine ⟨e7, fun _ => ⟨m + 1, zn, _, eta A.ε (A.eta₁ x) A.N d (m + 1), ⟨_, _, _, hp, by rw [Function.update_self], rfl, ?_⟩, e6, w1, w2, w3, ?_, ?_, e8.trans H.dfdu⟩, by simp⟩
    · rw [← hd]
      exact .converged (by omega) (by omega) goes hhe hle
    · exact e9
    · rw [← hd]; exact e10
  · rename_i hle
    have hle : ¬ eta A.ε (A.eta₁ x) A.N d (m + 1) * d (m + 1) ≤ A.φ := by simpa using hle
    rw [hA.ε, max_fin] at hrun
    refine ih (m := m + 1) (g := Function.update g (m + 1) fun k i => g m k i + Δn k i) (y := Function.update y (m + 1) zn)
      (Δ := Function.update Δ m Δn) ⟨hnum.upd, by rw [show facsOf (newtonUpdate s1) = facsOf s1 from rfl, hfac]; exact H.good, H.jok,
      .inr (.inr ⟨rfl, rfl, rfl⟩), e1.trans H.time, e2.trans H.step, e3.trans H.state, e4.trans H.scal, by
        rw [show (newtonUpdate s1).opts = s.opts from e5]; exact H.par, e6, by omega, ?_, ?_, ?_, ?_, ?_, ?_, hp, ?_, ?_, ?_, ?_, ?_, e7,
        e8.trans H.dfdu⟩ hrun
    · rw [Function.update_self]; exact w4
    · rw [Function.update_self]; exact w5
    · rw [Function.update_self]; exact w6
    · rw [Function.update_self]; exact w1
    · rw [Function.update_self]; exact w2
    · rw [Function.update_self]; exact w3
    · intro k h1 h2
      rw [← hd]
      by_cases hk : k = m + 1
      · subst hk
        exact ⟨hhe, not_le.1 hle⟩
      · exact goes k h1 (by omega)
    · rw [← hd]; exact e9
    · rw [← hd]; exact e10
    · intro _; rw [← hd]
    · intro h1 h2
      rw [← hd, Nat.add_sub_cancel]
      exact e11 h1 h2

/-- The state after the rate has been computed. -/
def tested (s : St X n P) (a b c : X) : St X n P :=
  { s with cache := { s.cache with theta := a, thqold := b, faccon := c } }

theorem Num.tested {E : NEnv n} (H : Num E fwd s) (a b c : X) : Num E fwd (tested s a b c) := { H with }

/-- The test of a pass. -/
theorem InLoop.check (hA : Coded A) {d : ℕ → ℝ} (H : InLoop A V u₀ fwd σ x m g y Δ s dyn)
    (hcon : ∀ k, 1 ≤ k → k ≤ m → norms A σ Δ k = d k) (hnn : ∀ k, 0 ≤ d k) (hk : 2 ≤ m + 1 ∧ m + 1 < A.N) :
    newtonCheck (solved s) (fin (d (m + 1))) dyn =
          if rate A.ε d (m + 1) < 0.99 then
            if 1 ≤ predicted A.ε (A.eta₁ x) A.φ A.N d (m + 1) then
              (slowStep (tested (solved s) (fin (rate A.ε d (m + 1))) (fin (d (m + 1) / max (d m) A.ε)) (fin (eta A.ε (A.eta₁ x) A.N d (m + 1))))
                (fin (predicted A.ε (A.eta₁ x) A.φ A.N d (m + 1))), true)
            else ((tested (solved s) (fin (rate A.ε d (m + 1))) (fin (d (m + 1) / max (d m) A.ε)) (fin (eta A.ε (A.eta₁ x) A.N d (m + 1)))), false)
          else (halveStep (tested (solved s) (fin (rate A.ε d (m + 1))) (fin (d (m + 1) / max (d m) A.ε)) (solved s).cache.faccon), true) := by
  have hdyn := H.dyn
  have hthq := H.thq
  have hm1 : (solved s).cache.newt = m + 1 := by change s.cache.newt + 1 = _; rw [H.newt]
  have ho : (solved s).opts = s.opts := rfl
  have hmax : ∀ z : ℝ, max z A.ε ≠ 0 := fun z => (lt_max_of_lt_right hA.ε0).ne'
  have ek : dyn = fin (max (d m) A.ε) := by rw [hdyn (by omega), hcon m (by omega) le_rfl]
  have eth : fin (d (m + 1)) / dyn = fin (d (m + 1) / max (d m) A.ε) := by rw [ek, div_fin (hmax _)]
  have en : newTheta (solved s) (fin (d (m + 1) / max (d m) A.ε)) = fin (rate A.ε d (m + 1)) := by
    unfold newTheta rate
    rw [hm1]
    by_cases h2 : m + 1 = 2
    · obtain rfl : m = 1 := by omega
      rw [if_pos rfl, if_pos rfl]
    · rw [if_neg h2, if_neg h2, show (solved s).cache.thqold = s.cache.thqold from rfl, hthq (by omega) (by omega), mul_fin,
        hcon m (by omega) le_rfl, hcon (m - 1) (by omega) (by omega), Nat.add_sub_cancel, show m + 1 - 2 = m - 1 by omega, sqrt_fin]
      exact mul_nonneg (div_nonneg (hnn _) (le_max_of_le_right hA.ε0.le)) (div_nonneg (hnn _) (le_max_of_le_right hA.ε0.le))
  simp only [newtonCheck]
  rw [if_pos (by rw [hm1, ho, H.par.N]; omega), eth, en, X.sci, lt_fin]
  by_cases hlt : rate A.ε d (m + 1) < 0.99
  · have h1 : (1 : ℝ) - rate A.ε d (m + 1) ≠ 0 := by norm_num at hlt; linarith
    have ee : (fin (rate A.ε d (m + 1)) : X) / ((1.0 : X) - fin (rate A.ε d (m + 1))) = fin (eta A.ε (A.eta₁ x) A.N d (m + 1)) := by
      rw [eta_self hk, X.sci, sub_fin, show (1.0 : ℝ) = 1 by norm_num, div_fin h1]
    rw [if_pos (by simpa using hlt), if_pos hlt, ee]
    have ep : (fin (eta A.ε (A.eta₁ x) A.N d (m + 1)) * fin (d (m + 1)) *
        Fl.powi (fin (rate A.ε d (m + 1))) ((s.opts.max_newt_iter - 1 - (solved s).cache.newt : ℕ) : ℤ) / s.opts.fnewt : X) =
        fin (predicted A.ε (A.eta₁ x) A.φ A.N d (m + 1)) := by
      rw [hm1, powi_fin _ _ (.inr (Int.natCast_nonneg _)), H.par.N, H.par.φ, mul_fin, mul_fin, div_fin hA.φ0, zpow_natCast]
      rfl
    change (if Fl.ge (fin (eta A.ε (A.eta₁ x) A.N d (m + 1)) * fin (d (m + 1)) *
        Fl.powi (fin (rate A.ε d (m + 1))) ((s.opts.max_newt_iter - 1 - (solved s).cache.newt : ℕ) : ℤ) / s.opts.fnewt) 1.0 = true then
        (slowStep _ (fin (eta A.ε (A.eta₁ x) A.N d (m + 1)) * fin (d (m + 1)) *
        Fl.powi (fin (rate A.ε d (m + 1))) ((s.opts.max_newt_iter - 1 - (solved s).cache.newt : ℕ) : ℤ) / s.opts.fnewt), true) else _) = _
    rw [ep, X.sci, ge_fin, show (1.0 : ℝ) = 1 by norm_num]
    simp only [decide_eq_true_eq]
    rfl
  · rw [if_neg (by simpa using hlt), if_neg hlt]
    rfl

/-- The iteration follows the specification. -/
theorem InLoop.run (hA : Coded A) {fuel : ℕ} {s' : St X n P} {b : Bool} (H : InLoop A V u₀ fwd σ x m g y Δ s dyn)
    (h : newtonLoop fuel s dyn = .ok (s', b)) : Looped A σ x s' b := by
  induction fuel generalizing s dyn m g y Δ with
  | zero => simp [newtonLoop] at h
  | succ fuel ih =>
    rw [newtonLoop_eq] at h
    split at h
    · rename_i hN
      obtain ⟨rfl, rfl⟩ := Prod.mk.inj (Res.ok.inj h)
      rw [H.newt, H.par.N] at hN
      obtain rfl : m = A.N := le_antisymm H.le hN
      obtain ⟨k1, k2, k3, k4⟩ := halveStep_vals H.num H.caljac H.time H.state H.step
      exact ⟨k3, by simp, fun _ => ⟨_, y A.N, _, _, k4.trans H.faccon, .inl ⟨⟨g, y, Δ, H.passes, rfl, rfl, .exhausted H.goes⟩, k1, k2⟩⟩⟩
    rename_i hN
    rw [H.newt, H.par.N] at hN
    obtain ⟨Δn, zn, hp, hnorm, hupd⟩ := H.pass hA
    rw [hnorm] at h
    have hcon : ∀ k, 1 ≤ k → k ≤ m → norms A σ Δ k = norms A σ (Function.update Δ m Δn) k := fun k h1 h2 => norms_update Δn h1 h2
    have hlast := norms_last (A := A) (σ := σ) (Δ := Δ) (m := m) Δn
    rw [← hlast] at h
    have goes : ∀ k, 1 ≤ k → k < m + 1 → GoesOn A.ε (A.eta₁ x) A.φ A.N (norms A σ (Function.update Δ m Δn)) k :=
      fun k h1 h2 => (H.goes k h1 (by omega)).congr hcon h1 (by omega)
    have fac := H.faccon
    have tht := H.theta
    rw [eta_congr hcon le_rfl] at fac
    rw [theta_congr hcon le_rfl] at tht
    have hnn := norms_nonneg (A := A) (σ := σ) (Function.update Δ m Δn)
    obtain ⟨d, hd⟩ : ∃ d, d = norms A σ (Function.update Δ m Δn) := ⟨_, rfl⟩
    rw [← hd] at h goes fac tht hcon hnn
    have hm1 : (solved s).cache.newt = m + 1 := by change s.cache.newt + 1 = _; rw [H.newt]
    have hNum : Num (penv A V u₀) fwd (solved s) := (H.num.rhs H.time H.step).solve H.good H.jok
    have hck := fun hk => H.check hA hcon hnn hk
    have q1 : (solved s).cache.caljac = false := H.caljac
    have q2 : (solved s).cache.dfdu = s.cache.dfdu := rfl
    have q3 : (solved s).dt = s.dt := rfl
    have q4 : (solved s).t = s.t := rfl
    have q5 : (solved s).u = s.u := rfl
    have q6 : (solved s).cache.scal = s.cache.scal := rfl
    have q7 : (solved s).opts = s.opts := rfl
    have q8 : facsOf (solved s) = facsOf s := rfl
    have q9 : (solved s).cache.faccon = s.cache.faccon := rfl
    have q10 : (solved s).cache.theta = s.cache.theta := rfl
    generalize solved s = w at *
    by_cases hk : 2 ≤ m + 1 ∧ m + 1 < A.N
    · rw [hck hk] at h
      by_cases hlt : rate A.ε d (m + 1) < 0.99
      · rw [if_pos hlt] at h
        by_cases hpr : 1 ≤ predicted A.ε (A.eta₁ x) A.φ A.N d (m + 1)
        · rw [if_pos hpr] at h
          simp only [afterCheck, if_true] at h
          obtain ⟨rfl, rfl⟩ := Prod.mk.inj (Res.ok.inj h)
          obtain ⟨k1, k2, k3, k4⟩ := slowStep_vals (s := (tested w (fin (rate A.ε d (m + 1))) (fin (d (m + 1) / max (d m) A.ε)) (fin (eta A.ε (A.eta₁ x) A.N d (m + 1)))))
            (N := A.N) q1 (q3.trans H.step) (show w.opts.max_newt_iter = _ by rw [q7, H.par.N]) (by change w.cache.newt < _; rw [hm1]; exact hk.2) hpr
          refine ⟨k3, by simp, fun _ => ⟨m + 1, _, _, _, k4, .inr ⟨_, ⟨_, _, _, hp, rfl, rfl, ?_⟩, k1, k2.trans (q2.trans H.dfdu)⟩⟩⟩
          rw [← hd]
          change Ends _ _ _ _ _ _ _ (.slowed (0.8 * min 20 _ ^ (-1 / (A.N + 3 - (w.cache.newt : ℝ)))))
          rw [hm1]
          exact .slow hk.1 hk.2 goes hlt hpr
        · rw [if_neg hpr] at h
          refine H.after hA ih (s1 := (tested w (fin (rate A.ε d (m + 1))) (fin (d (m + 1) / max (d m) A.ε)) (fin (eta A.ε (A.eta₁ x) A.N d (m + 1))))) hp (hupd _ ⟨rfl, rfl, rfl, rfl, rfl, rfl⟩) hd (by omega) goes (hNum.tested _ _ _) q8 q4 q3 q5 q6 q7 hm1 q1 q2
            (fun _ _ => ⟨hlt, not_le.1 hpr⟩) rfl ?_ (fun _ _ => rfl) h
          rw [theta_self hk]
          rfl
      · rw [if_neg hlt] at h
        simp only [afterCheck, if_true] at h
        obtain ⟨rfl, rfl⟩ := Prod.mk.inj (Res.ok.inj h)
        obtain ⟨k1, k2, k3, k4⟩ := halveStep_vals (s := (tested w (fin (rate A.ε d (m + 1))) (fin (d (m + 1) / max (d m) A.ε)) w.cache.faccon))
          (E := penv A V u₀) (fwd := fwd) (hNum.tested _ _ _) q1 (q4.trans H.time) (q5.trans H.state) (q3.trans H.step)
        refine ⟨k3, by simp, fun _ => ⟨m + 1, _, _, _, k4.trans (q9.trans fac), .inl ⟨⟨_, _, _, hp, rfl, rfl, ?_⟩, k1, k2⟩⟩⟩
        rw [← hd]
        exact .diverged hk.1 hk.2 goes (not_lt.1 hlt)
    · have ec : newtonCheck w (fin (d (m + 1))) dyn = (w, false) := by
        simp only [newtonCheck]
        rw [if_neg (by rw [hm1, q7, H.par.N]; omega)]
      rw [ec] at h
      refine H.after hA ih hp (hupd _ ⟨rfl, rfl, rfl, rfl, rfl, rfl⟩) hd (by omega) goes hNum q8 q4 q3 q5 q6 q7 hm1 q1 q2
        (fun h1 h2 => absurd ⟨h1, h2⟩ hk) ?_ ?_ (fun h1 h2 => absurd ⟨h1, h2⟩ hk) h
      · rw [eta_skip (by omega) hk]; exact q9.trans fac
      · rw [theta_skip (by omega) hk]; exact q10.trans tht

end
end Radau
end
end Cyphus
