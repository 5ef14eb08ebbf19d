import Verif.Proofs.RadauSim
import Verif.Proofs.RadauTry
import Verif.Props.RadauLaw
import Verif.Props.RadauStart
/-!
# The attempts of `Radau5` follow the specified algorithm
-/

namespace Cyphus
namespace Radau
set_option autoImplicit false
set_option linter.unusedSectionVars false
noncomputable section
open X Spec.Radau5
variable {n : ℕ} {P : Type}

theorem fmat_inj {J K : _root_.Fin n → _root_.Fin n → ℝ} (h : fmat J = fmat K) : J = K :=
  funext fun i => funext fun j => fin_inj.1 (congrFun (congrFun h i) j)

/-- The memory of the step before. -/
structure Recall (A : Problem n) (p : Past n) (s : St X n P) : Prop where
  dtprev : s.dtprev = fin p.h
  cont1 : s.cache.cont1 = fv fun i => (p.z 1 i - p.z 2 i) / C2M1
  cont2 : s.cache.cont2 = fv fun i => ((p.z 0 i - p.z 1 i) / C1MC2 - (p.z 1 i - p.z 2 i) / C2M1) / C1M1
  cont3 : s.cache.cont3 = fv fun i => ((p.z 0 i - p.z 1 i) / C1MC2 - (p.z 1 i - p.z 2 i) / C2M1) / C1M1 -
      ((p.z 0 i - p.z 1 i) / C1MC2 - p.z 0 i / C1) / C2
  mem : A.pred = true → s.cache.dtacc = fin p.h ∧ s.cache.erracc = fin (max 1e-2 p.e)

/-- What does not change during a step. -/
structure Base (A : Problem n) (σ : State n) (s : St X n P) : Prop where
  time : s.t = fin σ.t
  state : s.u = fv σ.u
  deriv : s.cache.u0 = fv (A.f σ.t σ.u)
  scal : s.cache.scal = fun i => fin A.a + fin A.r * Fl.abs (fin (σ.u i))
  par : Par A s.opts
  caljac : s.cache.caljac = false
  first : s.cache.first = σ.past.isNone
  cfac : s.cache.cfac = fin (A.C.sf * (1 + 2 * A.N))
  accepts : σ.past.isSome = decide (0 < s.stats.accepts)
  past : ∀ p, σ.past = some p → Recall A p s

section
variable {A : Problem n} {V : Submodule ℝ (_root_.Fin n → ℝ)} {u₀ : _root_.Fin n → ℝ} {fwd : Prop} {σ : State n} {x : Trial n}
  {s s1 s2 s' : St X n P}

theorem Base.frame (H : Base A σ s) (f : Frame s s') : Base A σ s' := by
  refine ⟨f.t.trans H.time, f.u.trans H.state, f.u0.trans H.deriv, f.scal.trans H.scal, f.opts ▸ H.par, f.caljac.trans H.caljac,
    f.first.trans H.first, f.cfac.trans H.cfac, by rw [f.accepts]; exact H.accepts, fun p hp => ?_⟩
  have R := H.past p hp
  exact ⟨f.dtprev.trans R.dtprev, f.cont1.trans R.cont1, f.cont2.trans R.cont2, f.cont3.trans R.cont3, fun h =>
    ⟨f.dtacc.trans (R.mem h).1, f.erracc.trans (R.mem h).2⟩⟩

theorem Base.recalls (H : Base A σ s) : Recalls s s.stats.accepts (σ.memory A) := by
  unfold State.memory
  have hp := H.par.pred
  have ha := H.accepts
  cases hA : A.pred with
  | false =>
    simp only [Bool.false_eq_true, if_false]
    change (_ && _) = false
    rw [hp, hA]; rfl
  | true =>
    simp only [if_true]
    cases hq : σ.past with
    | none =>
      change (_ && _) = false
      rw [← ha, hq]; simp
    | some p =>
      obtain ⟨m1, m2⟩ := (H.past p hq).mem hA
      refine ⟨?_, m1, m2⟩
      rw [← ha, hp, hA, hq]; rfl

theorem Base.start (H : Base A σ s) (hA : Coded A) {h : ℝ} {y₀ : _root_.Fin 3 → _root_.Fin n → ℝ} (S : StartVals s h y₀) :
    Start A σ h y₀ := by
  unfold Start
  cases hx : A.ext with
  | false => exact radau_start_zero S (.inr (by rw [H.par.ext, hx]))
  | true =>
    cases hp : σ.past with
    | none => exact radau_start_zero S (.inl (by rw [H.first, hp]; rfl))
    | some p =>
      have R := H.past p hp
      change Spec.Extrapolates A.c p.t p.h p.u p.z h y₀
      rw [hA.c]
      exact extrapolates_of S (by rw [H.first, hp]; rfl) (by rw [H.par.ext, hx]) R.dtprev R.cont1 R.cont2 R.cont3

/-- At the head of the loop. -/
structure Try (A : Problem n) (V : Submodule ℝ (_root_.Fin n → ℝ)) (u₀ : _root_.Fin n → ℝ) (fwd : Prop) (σ : State n) (x : Trial n)
    (s : St X n P) : Prop where
  base : Base A σ s
  num : Num (penv A V u₀) fwd s
  clk : Clk A.C fwd s σ.t x.h
  faccon : s.cache.faccon = fin x.η
  dfdu : s.cache.dfdu = fmat x.J
  dec : s.cache.decompose = x.fresh
  kept : x.fresh = false → JOk (penv A V u₀) fwd x.Jf ∧ Good x.hf x.Jf (facsOf s)
  reject : s.cache.reject = x.retried
  last : s.cache.last = x.last

theorem Try.jok (H : Try A V u₀ fwd σ x s) : JOk (penv A V u₀) fwd x.J := by
  obtain ⟨J, e, h⟩ := H.num.dfdu
  rw [H.dfdu] at e
  rw [fmat_inj e]
  exact h

/-! ### The decompositions -/

theorem perform_true_fields (h : perform_decompositions s = .ok (s1, true)) : s1.dt = s.dt ∧ s1.cache.dfdu = s.cache.dfdu ∧
    s1.cache.decompose = s.cache.decompose ∧ s1.cache.last = s.cache.last ∧ s1.cache.reject = s.cache.reject ∧
    s1.cache.faccon = s.cache.faccon := by
  obtain ⟨-, a, b, h1, h2, rfl⟩ | ⟨h, -⟩ := perform_ok h
  · obtain ⟨r1, e1, rfl⟩ := decomp_real_ok h1
    obtain ⟨r2, e2, rfl⟩ := decomp_complex_ok h2
    exact ⟨rfl, rfl, rfl, rfl, rfl, rfl⟩
  · simp at h

theorem perform_false_fields (h : perform_decompositions s = .ok (s1, false)) : ∃ w, s1 = decFail w ∧ w.t = s.t ∧ w.u = s.u ∧
    w.dt = s.dt ∧ w.cache.caljac = s.cache.caljac ∧ w.cache.faccon = s.cache.faccon ∧
    (∀ {E : NEnv n} {fwd : Prop}, Num E fwd s → Num E fwd w) := by
  obtain ⟨h, -⟩ | ⟨-, w, rfl, ⟨ier, h1⟩ | ⟨s0, ier, h1, h2⟩⟩ := perform_ok h
  · simp at h
  · obtain ⟨r1, e1, rfl⟩ := decomp_real_ok h1
    exact ⟨_, rfl, rfl, rfl, rfl, rfl, rfl, fun H => { H with }⟩
  · obtain ⟨r1, e1, rfl⟩ := decomp_real_ok h1
    obtain ⟨r2, e2, rfl⟩ := decomp_complex_ok h2
    exact ⟨_, rfl, rfl, rfl, rfl, rfl, rfl, fun H => { H with }⟩

theorem decFail_vals {t h : ℝ} {v : _root_.Fin n → ℝ} {E : NEnv n} (N : Num E fwd s) (hc : s.cache.caljac = false)
    (ht : s.t = fin t) (hu : s.u = fv v) (hh : s.dt = fin h) (hr : (decFail s).sol.retcode ≠ .SingularMatrix) :
    (decFail s).dt = fin (h / 2) ∧ (decFail s).cache.dfdu = fmat (E.jac t v) ∧ (decFail s).cache.faccon = s.cache.faccon ∧
      (decFail s).cache.reject = true ∧ (decFail s).cache.last = false := by
  simp only [decFail] at hr ⊢
  split at hr
  · exact absurd rfl hr
  · rename_i h5
    rw [if_neg h5]
    have N' : Num E fwd { s with cache := { s.cache with nsing := s.cache.nsing + 1 } } := { N with }
    have k := halveStep_vals N' hc ht hu hh
    have f := halveStep_flags { s with cache := { s.cache with nsing := s.cache.nsing + 1 } }
    exact ⟨k.1, k.2.1, k.2.2.2, f.1, f.2⟩

/-- The attempt after a failed factorization. -/
def halfOf (A : Problem n) (σ : State n) (x : Trial n) : Trial n :=
  { x with h := x.h / 2, J := A.jac σ.t σ.u, last := false, retried := true }

theorem Clk.cast {C : Clock} {t h' : ℝ} (H : ∃ h, Clk C fwd s t h) (e : s.dt = fin h') : Clk C fwd s t h' := by
  obtain ⟨h, H⟩ := H
  obtain rfl : h = h' := fin_inj.1 (H.step.symm.trans e)
  exact H

theorem Try.fail (hA : Coded A) (H : Try A V u₀ fwd σ x s) (hfr : x.fresh = true)
    (h : perform_decompositions s = .ok (s1, false)) (hr : s1.sol.retcode ≠ .SingularMatrix) :
    Try A V u₀ fwd σ (halfOf A σ x) s1 ∧ (x.h ≠ 0 → Fails A σ x (halfOf A σ x)) := by
  obtain ⟨w, rfl, e1, e2, e3, e4, e5, e6⟩ := perform_false_fields h
  have N := e6 H.num
  have k := decFail_vals N (e4.trans H.base.caljac) (e1.trans H.base.time) (e2.trans H.base.state) (e3.trans H.clk.step) hr
  have cn := NumD.closed.perform ⟨⟨_, H.clk⟩, H.num⟩ h
  refine ⟨⟨H.base.frame (Frame.perform h), cn.2, Clk.cast cn.1 k.1, k.2.2.1.trans (e5.trans H.faccon), k.2.1,
    (perform_fail_decs h).2.trans H.dec, fun h' => ?_, k.2.2.2.1, k.2.2.2.2⟩, fun h0 => .singular hfr fun hR => ?_⟩
  · exact absurd (hfr.symm.trans h') (by simp)
  · have hR' : Regular x.J x.h := by
      unfold Problem.Regular at hR
      rw [hA.M] at hR
      exact hR
    obtain ⟨s2, h2, -⟩ := perform_regular hA.n0 H.dfdu H.clk.step h0 hR'
    rw [h2] at h
    simp at h

theorem Try.pass (H : Try A V u₀ fwd σ x s) (hfr : x.fresh = true) (h : perform_decompositions s = .ok (s1, true)) :
    Try A V u₀ fwd σ x s1 := by
  obtain ⟨e1, e2, e3, e4, e5, e6⟩ := perform_true_fields h
  have cn := NumD.closed.perform ⟨⟨_, H.clk⟩, H.num⟩ h
  exact ⟨H.base.frame (Frame.perform h), cn.2, Clk.cast cn.1 (e1.trans H.clk.step), e6.trans H.faccon, e2.trans H.dfdu, e3.trans H.dec,
    fun h' => absurd (hfr.symm.trans h') (by simp), e5.trans H.reject, e4.trans H.last⟩

theorem Try.decLoop (hA : Coded A) {fuel : ℕ} (H : Try A V u₀ fwd σ x s) (hfr : x.fresh = true) (hx : x.retried = true → x.last = false)
    (h : decLoop fuel s = .ok (s1, true)) : ∃ x1, Try A V u₀ fwd σ x1 s1 ∧ x1.fresh = true ∧ (x1.retried = true → x1.last = false) ∧
      (x1.h ≠ 0 → x.h ≠ 0 ∧ Relation.ReflTransGen (Fails A σ) x x1) := by
  induction fuel generalizing s x with
  | zero => simp [Radau.decLoop] at h
  | succ f ih =>
    rw [Radau.decLoop, Res.bind_eq_ok] at h
    obtain ⟨⟨s2, b⟩, h1, h2⟩ := h
    dsimp only at h2
    cases b with
    | true =>
      rw [if_pos rfl] at h2
      obtain ⟨rfl, -⟩ := Prod.mk.inj (Res.ok.inj h2)
      exact ⟨x, H.pass hfr h1, hfr, hx, fun h0 => ⟨h0, .refl⟩⟩
    | false =>
      rw [if_neg (by simp)] at h2
      split at h2
      · simp at h2
      · rename_i hr
        obtain ⟨T, F⟩ := H.fail hA hfr h1 (by intro hr'; simp [hr'] at hr)
        obtain ⟨x1, T1, f1, l1, g1⟩ := ih T hfr (fun _ => rfl) h2
        refine ⟨x1, T1, f1, l1, fun h0 => ?_⟩
        obtain ⟨n0, R⟩ := g1 h0
        have n1 : x.h ≠ 0 := by
          intro hz
          exact n0 (by simp [halfOf, hz])
        exact ⟨n1, .head (F n1) R⟩

/-- After the decompositions. -/
structure Tried (A : Problem n) (V : Submodule ℝ (_root_.Fin n → ℝ)) (u₀ : _root_.Fin n → ℝ) (fwd : Prop) (σ : State n) (x : Trial n)
    (s : St X n P) : Prop extends Try A V u₀ fwd σ x s where
  good : Good x.hm x.Jm (facsOf s)
  jokm : JOk (penv A V u₀) fwd x.Jm
  ne : x.h ≠ 0
  flag : x.retried = true → x.last = false

theorem Try.decPhase (hA : Coded A) {fuel : ℕ} (H : Try A V u₀ fwd σ x s) (hx : x.retried = true → x.last = false)
    (h : decPhase fuel s = .ok (s1, true)) (hs : tooSmall s1 = false) :
    ∃ x1, Relation.ReflTransGen (Fails A σ) x x1 ∧ Tried A V u₀ fwd σ x1 s1 := by
  obtain ⟨d1, d2, d3, d4⟩ | ⟨d1, rfl⟩ := decPhase_factored h
  · unfold Radau.decPhase at h
    rw [if_pos d1] at h
    obtain ⟨x1, T, f1, l1, g1⟩ := H.decLoop hA (H.dec.symm.trans d1) hx h
    have h0 := T.clk.step_ne hs
    refine ⟨x1, (g1 h0).2, T, ?_, ?_, h0, l1⟩
    · unfold Trial.hm Trial.Jm
      rw [if_pos f1, if_pos f1]
      rw [T.dfdu, T.clk.step] at d3
      exact d3.good h0 (T.jok.col _ (div_ne_zero U1_pos.ne' h0) fun hf =>
        div_pos U1_pos (lt_of_le_of_ne (T.clk.pos hf) (Ne.symm h0)))
    · unfold Trial.Jm
      rw [if_pos f1]
      exact T.jok
  · have hf : x.fresh = false := H.dec.symm.trans d1
    obtain ⟨k1, k2⟩ := H.kept hf
    refine ⟨x, .refl, H, ?_, ?_, H.clk.step_ne hs, hx⟩
    · simp only [Trial.hm, Trial.Jm, hf, Bool.false_eq_true, if_false]; exact k2
    · simp only [Trial.Jm, hf, Bool.false_eq_true, if_false]; exact k1

/-! ### The Newton iteration -/

theorem notEigen_of_surj {K : Type} [Field K] {n : ℕ} {J : _root_.Fin n → _root_.Fin n → K} {lam : K}
    (h : ∀ b : _root_.Fin n → K, ∃ y : _root_.Fin n → K, ∀ i, lam * y i - ∑ j, J i j * y j = b i) : Spec.NotEigen J lam := by
  intro v hv
  let L : (_root_.Fin n → K) →ₗ[K] (_root_.Fin n → K) := lam • LinearMap.id - Matrix.mulVecLin (Matrix.of J)
  have hL : ∀ y i, L y i = lam * y i - ∑ j, J i j * y j := fun y i => by
    simp [L, Matrix.mulVec, dotProduct]
  have hs : Function.Surjective L := fun b => by
    obtain ⟨y, hy⟩ := h b
    exact ⟨y, funext fun i => by rw [hL, hy]⟩
  have hi := LinearMap.injective_iff_surjective.2 hs
  refine hi ?_
  rw [map_zero]
  funext i
  rw [hL, hv, sub_self]
  rfl

/-- Matrices that were factored are regular. -/
theorem Good.regular {h : ℝ} {J : _root_.Fin n → _root_.Fin n → ℝ} {d : Facs X n} (G : Good h J d) :
    Spec.NotEigen J (codeTransform.γ / h) ∧
      Spec.NotEigen (fun i j => (J i j : ℂ)) ⟨codeTransform.α / h, codeTransform.β / h⟩ := by
  refine ⟨notEigen_of_surj fun b => ?_, notEigen_of_surj fun b => ?_⟩
  · obtain ⟨y, -, hy⟩ := G.real b
    exact ⟨y, hy⟩
  · obtain ⟨y, w, -, -, h1, h2⟩ := G.cplx (fun i => (b i).re) (fun i => (b i).im)
    refine ⟨fun i => ⟨y i, w i⟩, fun i => Complex.ext ?_ ?_⟩
    · rw [← h1]
      simp [codeTransform]
    · rw [← h2]
      simp [codeTransform]

theorem newtonInit_vals (s : St X n P) : (newtonInit s).cache.newt = 0 ∧
    (newtonInit s).cache.faccon = Fl.powf (Fl.max s.cache.faccon Fl.eps) 0.8 ∧ (newtonInit s).cache.theta = Fl.abs s.opts.theta ∧
    (newtonInit s).cache.dfdu = s.cache.dfdu ∧ facsOf (newtonInit s) = facsOf s ∧ (newtonInit s).dt = s.dt := by
  simp only [newtonInit, prepare_newton]
  split <;> refine ⟨?_, ?_, ?_, ?_, ?_, ?_⟩ <;> first | trivial | rfl

theorem Tried.newton (hA : Coded A) (T : Tried A V u₀ fwd σ x s1) {b : Bool} (h : newton (tick s1) = .ok (s2, b)) :
    Looped A σ x s2 b ∧ Base A σ s2 ∧ Num (penv A V u₀) fwd s2 ∧ (∃ h, Clk A.C fwd s2 σ.t h) ∧ Good x.hm x.Jm (facsOf s2) ∧
      s2.cache.decompose = x.fresh := by
  have Nt : Num (penv A V u₀) fwd (tick s1) := { T.num with }
  have Bt : Base A σ (tick s1) := T.base.frame (Frame.tick s1)
  obtain ⟨⟨c2, n2⟩, g2⟩ := (NumN.closed T.jokm).newton (s := tick s1) ⟨⟨Clk.tick ⟨_, T.clk⟩, Nt⟩, T.good⟩ h
  have hk := (facs_closedN _ _ _).newton (s := tick s1) ⟨rfl, rfl, rfl⟩ h
  refine ⟨?_, Bt.frame (Frame.newton h), n2, c2, g2, hk.2.2.trans T.dec⟩
  have hdt : (tick s1).dt = fin x.h := T.clk.step
  obtain ⟨y₀, S, -, g, y, a1, a2, a3, a4, a5, a6, run⟩ := Reached.start (J := x.Jm) (t := σ.t) (hf := x.hm) (u := σ.u) Nt hdt
  obtain ⟨i1, i2, i3, i4, i5, i6⟩ := newtonInit_vals (tick s1)
  have f := Frame.newtonInit (tick s1)
  rw [i1] at run
  have hy : y = y₀ ∧ ∀ k i, g k i = ∑ l, codeTransform.TI k l * y₀ l i := by
    cases run with
    | start h => exact ⟨rfl, h⟩
  obtain ⟨rfl, hg⟩ := hy
  have Bi := Bt.frame f
  have hfin : (Fl.max (tick s1).cache.faccon Fl.eps : X) = fin (max x.η A.ε) := by
    rw [show (tick s1).cache.faccon = fin x.η from T.faccon, hA.ε, max_fin]
  have hpos : 0 < max x.η A.ε := lt_max_of_lt_right hA.ε0
  have r0 : ∀ N, rated N 0 ≤ 1 := fun N => by simp [rated]
  rw [newton_eq] at h
  refine InLoop.run (V := V) (u₀ := u₀) (fwd := fwd) (m := 0) (g := fun _ => g) (y := fun _ => y) (Δ := fun _ => 0) hA ?_ h
  exact ⟨Nt.init hdt, i5 ▸ T.good, T.jokm, (newtonInit_started _).imp id .inl, Bi.time, i6.trans hdt, Bi.state, Bi.scal, Bi.par, i1,
    Nat.zero_le _, a1, a2, a3, a4, a5, a6,
    ⟨Bt.start hA S, by rw [hA.M]; exact hg, fun j hj => absurd hj (Nat.not_lt_zero _), fun j hj => absurd hj (Nat.not_lt_zero _),
      T.ne, T.good.ne, by unfold Problem.Regular; rw [hA.M]; exact T.good.regular⟩,
    fun k h1 h2 => by omega, by
      rw [i2, hfin, X.sci, powf_fin hpos]
      unfold eta
      rw [if_pos (r0 _)]
      rfl, by
      rw [i3, Bt.par.θ₀, abs_fin]
      unfold Spec.Radau5.theta
      rw [if_pos (r0 _)], fun h => by omega, fun h => by omega, Bi.caljac, i4.trans T.dfdu⟩

theorem again_kept (T : Tried A V u₀ fwd σ x s1) (h η : ℝ) (J : _root_.Fin n → _root_.Fin n → ℝ) (b : Bool) (hg : Good x.hm x.Jm (facsOf s2)) :
    (x.again h η J b).fresh = false → JOk (penv A V u₀) fwd (x.again h η J b).Jf ∧ Good (x.again h η J b).hf (x.again h η J b).Jf (facsOf s2) :=
  fun _ => ⟨T.jokm, hg⟩

/-- An attempt whose Newton iteration fails. -/
theorem Tried.diverged (hA : Coded A) (T : Tried A V u₀ fwd σ x s1) (h : Radau.newton (tick s1) = .ok (s2, false)) :
    ∃ x1, Fails A σ x x1 ∧ Try A V u₀ fwd σ x1 s2 ∧ x1.last = false := by
  obtain ⟨L, B, N, c, g, d⟩ := T.newton hA h
  have fl := newton_flags h
  simp at fl
  obtain ⟨m, z, θ, η, e, ⟨it, e1, e2⟩ | ⟨w, it, e1, e2⟩⟩ := L.fail rfl
  · exact ⟨_, .halved it, ⟨B, N, Clk.cast c e1, e, e2, d, again_kept T _ _ _ _ g, fl.1, fl.2⟩, rfl⟩
  · exact ⟨_, .slowed it, ⟨B, N, Clk.cast c e1, e, e2, d, again_kept T _ _ _ _ g, fl.1, fl.2⟩, rfl⟩

/-! ### The error test -/

/-- The error of an attempt whose Newton iteration converges. -/
theorem Tried.error (hA : Coded A) (T : Tried A V u₀ fwd σ x s1) (B : Base A σ s2) (N : Num (penv A V u₀) fwd s2)
    (g : Good x.hm x.Jm (facsOf s2)) (hdt : s2.dt = fin x.h) (hr : s2.cache.reject = x.retried)
    {z : _root_.Fin 3 → _root_.Fin n → ℝ} (z1 : s2.cache.z1 = fv (z 0)) (z2 : s2.cache.z2 = fv (z 1)) (z3 : s2.cache.z3 = fv (z 2)) :
    ∃ err, (decided s2).cache.err = fin err ∧ 0 < err ∧ Err A σ x z err := by
  obtain ⟨⟨e, e1, e2⟩, ef⟩ := Num.errFirst_real g hdt T.ne z1 z2 z3 B.deriv
  have hten : (1.0e-10 : ℝ) = 1e-10 := by norm_num
  have er1 : (errFirst s2).cache.err = fin (max (Spec.scaledNorm A.a A.r σ.u e) 1e-10) := by
    rw [← hten]
    exact errNorm_fin hA.a0 hA.r0 hA.n0 B.scal e1
  have hlt : Fl.lt (errFirst s2).cache.err 1.0 = decide (Spec.scaledNorm A.a A.r σ.u e < 1) := by
    rw [er1, X.sci, lt_fin]
    congr 1
    rw [show (1.0 : ℝ) = 1 by norm_num, max_lt_iff]
    exact propext ⟨fun h => h.1, fun h => ⟨h, by norm_num⟩⟩
  have hγ : A.M.γ = U1 := by rw [hA.M]; rfl
  have hpos : ∀ y : ℝ, 0 < max y 1e-10 := fun y => lt_max_of_lt_right (by norm_num)
  have hfirst : (errFirst s2).cache.first = σ.past.isNone := B.first
  have hrej : (errFirst s2).cache.reject = x.retried := hr
  unfold Err
  rw [hγ]
  unfold decided error_estimate
  dsimp only
  by_cases h1 : Spec.scaledNorm A.a A.r σ.u e < 1
  · rw [if_pos (by rw [hlt]; simpa using h1)]
    exact ⟨_, er1, hpos _, e, e2, by rw [if_pos (.inl h1)]⟩
  · rw [if_neg (by rw [hlt]; simpa using h1), hfirst, hrej]
    by_cases h2 : σ.past.isSome ∧ x.retried = false
    · rw [if_neg (by rw [h2.2]; cases hp : σ.past <;> simp_all)]
      exact ⟨_, er1, hpos _, e, e2, by rw [if_pos (.inr h2)]⟩
    · rw [if_pos (by cases hp : σ.past <;> simp_all)]
      have n3 := N.err1 hdt T.ne g
      obtain ⟨e', e3, e4⟩ := n3.errSecond_real (h := x.h) (z := z) (hf := x.hm) (J := x.Jm) g B.time B.state e1 ef
      have er2 : (errSecond (errFirst s2)).cache.err = fin (max (Spec.scaledNorm A.a A.r σ.u e') 1e-10) := by
        rw [← hten]
        exact errNorm_fin hA.a0 hA.r0 hA.n0 B.scal e3
      exact ⟨_, er2, hpos _, e, e2, by rw [if_neg (by rintro (h | h); exacts [h1 h, h2 h])]; exact ⟨e', e4, rfl⟩⟩

/-- After a converged Newton iteration and the error estimate. -/
structure Judged (A : Problem n) (V : Submodule ℝ (_root_.Fin n → ℝ)) (u₀ : _root_.Fin n → ℝ) (fwd : Prop) (σ : State n) (x : Trial n)
    (m : ℕ) (z : _root_.Fin 3 → _root_.Fin n → ℝ) (θ η err : ℝ) (d : St X n P) : Prop where
  base : Base A σ d
  num : Num (penv A V u₀) fwd d
  clk : Clk A.C fwd d σ.t x.h
  good : Good x.hm x.Jm (facsOf d)
  jokm : JOk (penv A V u₀) fwd x.Jm
  ne : x.h ≠ 0
  reject : d.cache.reject = x.retried
  last : d.cache.last = x.last
  dec : d.cache.decompose = true
  newton : Iterates A σ x m z θ η .converged
  newt : d.cache.newt = m
  le : 1 ≤ A.N
  z1 : d.cache.z1 = fv (z 0)
  z2 : d.cache.z2 = fv (z 1)
  z3 : d.cache.z3 = fv (z 2)
  faccon : d.cache.faccon = fin η
  theta : d.cache.theta = fin θ
  dfdu : d.cache.dfdu = fmat x.J
  val : d.cache.err = fin err
  pos : 0 < err
  error : Err A σ x z err
  flag : x.retried = true → x.last = false

theorem Tried.judged (hA : Coded A) (T : Tried A V u₀ fwd σ x s1) (h : Radau.newton (tick s1) = .ok (s2, true)) :
    ∃ m z θ η err, Judged A V u₀ fwd σ x m z θ η err (decided s2) := by
  obtain ⟨L, B, N, c, g, d⟩ := T.newton hA h
  have fl := newton_flags h
  simp only [if_true] at fl
  obtain ⟨m, z, θ, η, it, k1, z1, z2, z3, k2, k3, k4⟩ := L.conv rfl
  have hdt : s2.dt = fin x.h := fl.2.2.trans T.clk.step
  have hr : s2.cache.reject = x.retried := fl.1.trans T.reject
  obtain ⟨err, e1, e2, e3⟩ := T.error hA B N g hdt hr z1 z2 z3
  have n3 := N.decided B.time hdt T.ne g T.jokm
  have c3 := Clk.closed.decided c
  have es := error_estimate_sol s2
  obtain ⟨-, -, -, -, -, -, s7, s8, s9, s10, s11, s12, s13, s14⟩ := es
  have nn := newton_newt h
  have hN : 1 ≤ A.N := by
    have := nn.1.trans nn.2
    rw [show (tick s1).opts = s1.opts from rfl, T.base.par.N] at this
    exact this
  exact ⟨m, z, θ, η, err, B.frame (Frame.decided s2), n3, Clk.cast c3 ((decided_dt s2).trans hdt), by rw [(decided_facs s2).1]; exact g,
    T.jokm, T.ne, s8.trans hr, s7.trans (fl.2.1.trans T.last), (decided_facs s2).2.2.1, it, s14.trans k1, hN, s9.trans z1,
    s10.trans z2, s11.trans z3, (decided_faccon s2).trans k2, s13.trans k3, s12.trans k4, e1, e2, e3, T.flag⟩

section
variable {m : ℕ} {z : _root_.Fin 3 → _root_.Fin n → ℝ} {θ η err : ℝ} {d : St X n P}

theorem rejectStep_keeps (s : St X n P) (q : X) (hc : s.cache.caljac = false) : (rejectStep s q).cache.faccon = s.cache.faccon ∧
    (rejectStep s q).cache.dfdu = (jacobian_u s.dudt s.dfdu s.cache.dfdu s.u s.t s.params).1 := by
  simp only [rejectStep]
  split <;> rw [if_pos (by simp [hc])] <;> exact ⟨rfl, rfl⟩

/-- A rejected attempt. -/
theorem Judged.rejected (H : Judged A V u₀ fwd σ x m z θ η err d) (hlt : ¬ Fl.lt d.cache.err 1.0 = true) :
    ∃ x1, Fails A σ x x1 ∧ Try A V u₀ fwd σ x1 (rejectStep d (stepQuot d)) ∧ x1.last = false := by
  have hlt' := Bool.eq_false_iff.2 hlt
  have h1 : 1 ≤ err := by
    rw [H.val, X.sci, lt_fin] at hlt
    have : ¬ err < 1.0 := by simpa using hlt
    norm_num at this
    exact this
  have f := rejectStep_fields d (stepQuot d)
  have k := rejectStep_keeps d (stepQuot d) H.base.caljac
  have hq := classic_val H.clk.ctl H.base.par.N H.le H.base.cfac H.pos H.val
  rw [H.newt] at hq
  have hq0 : A.C.classic A.N m err ≠ 0 := (H.clk.ctl.facr_pos.trans_le (le_max_left _ _)).ne'
  have hdt := f.2.2.2.2.2.2.2.2.2
  refine ⟨_, .rejected H.newton H.error h1, ⟨H.base.frame (Frame.rejectStep _ _), H.num.reject H.clk.time _, Clk.cast (H.clk.reject hlt') ?_,
    k.1.trans H.faccon, ?_, f.2.2.2.2.1.trans H.dec, fun h => absurd h (by simp [Trial.again]), f.2.2.1, f.2.2.2.1⟩, rfl⟩
  · rw [hdt, H.base.first, H.clk.step, hq]
    simp only [Trial.again]
    cases hp : σ.past with
    | none =>
      simp only [Option.isNone_none, Option.isSome_none, if_true, Bool.false_eq_true, if_false]
      rw [X.sci, mul_fin]
      congr 1
      norm_num
      ring
    | some p =>
      simp only [Option.isNone_some, Option.isSome_some, if_true, Bool.false_eq_true, if_false]
      rw [div_fin hq0]
  · rw [k.2, H.clk.time, H.base.state, H.num.jacs]
    rfl

/-- A failed attempt. -/
theorem Try.att (hA : Coded A) (H : Try A V u₀ fwd σ x s) (hx : x.retried = true → x.last = false) (h : Att s s') :
    ∃ x1, Relation.ReflTransGen (Fails A σ) x x1 ∧ Try A V u₀ fwd σ x1 s' ∧ (x1.retried = true → x1.last = false) := by
  cases h with
  | diverged h1 _ h3 h2 =>
    obtain ⟨x1, R, T⟩ := H.decPhase hA hx h1 h3
    obtain ⟨x2, F, T2, l⟩ := T.diverged hA h2
    exact ⟨x2, R.tail F, T2, fun _ => l⟩
  | @again s1 s2 fuel h1 _ h3 h2 h5 =>
    obtain ⟨x1, R, T⟩ := H.decPhase hA hx h1 h3
    obtain ⟨m, z, θ, η, err, D⟩ := T.judged hA h2
    rw [control_eq] at h5 ⊢
    split at h5
    · have hL : L (decided s2) := fun hr => by rw [D.last]; exact D.flag (D.reject.symm.trans hr)
      rw [acceptStep_reject_of_L _ hL] at h5; simp at h5
    · rename_i hlt
      rw [if_neg hlt]
      obtain ⟨x2, F, T2, l⟩ := D.rejected hlt
      exact ⟨x2, R.tail F, T2, fun _ => l⟩

theorem Try.atts (hA : Coded A) {k : ℕ} (H : Try A V u₀ fwd σ x s) (hx : x.retried = true → x.last = false) (h : Atts k s s') :
    ∃ x1, Relation.ReflTransGen (Fails A σ) x x1 ∧ Try A V u₀ fwd σ x1 s' ∧ (x1.retried = true → x1.last = false) := by
  induction h generalizing x with
  | zero => exact ⟨x, .refl, H, hx⟩
  | succ h1 _ ih =>
    obtain ⟨x1, R, T, l⟩ := H.att hA hx h1
    obtain ⟨x2, R2, T2, l2⟩ := ih T l
    exact ⟨x2, R.trans R2, T2, l2⟩

/-! ### An accepted attempt -/

open Classical in
/-- The flags and the Jacobian after an accepted step which is not the last one. -/
theorem nextStep_flags {C : Clock} {t h : ℝ} {v : _root_.Fin n → ℝ} {E : NEnv n} (N : Num E fwd s) (hctl : Ctl C s.opts)
    (hd : s.tdir = fin C.d) (hf : s.tfinal = fin C.tf) (ht : s.t = fin t) (hu : s.u = fv v) (hh : s.dt = fin h) (h0 : h ≠ 0) (q : ℝ)
    {θ₀ : ℝ} (hθ : s.cache.theta = fin θ) (hθ₀ : s.opts.theta = fin θ₀) (hl : s.cache.last = false) (hc : s.cache.decompose = true)
    {J : _root_.Fin n → _root_.Fin n → ℝ} (hJ : s.cache.dfdu = fmat J) {p : ℝ} (hp : p = C.proposal s.cache.reject h q) :
    (nextStep s (fin (h / q))).cache.last = decide (0 ≤ (t + p / C.q1 - C.tf) * C.d) ∧
    (nextStep s (fin (h / q))).cache.decompose = !decide (¬ 0 ≤ (t + p / C.q1 - C.tf) * C.d ∧ θ ≤ θ₀ ∧ C.q1 ≤ p / h ∧
      Fl.le (fin (p / h)) C.q2 = true) ∧
    (nextStep s (fin (h / q))).cache.dfdu = fmat (if θ ≤ θ₀ then J else E.jac t v) := by
  have ec : capStep s (fin (h / q)) = fin p := by
    rw [hp]
    unfold capStep Clock.proposal
    rw [hctl.cap_eq, hd, mul_fin, hh]
    cases s.cache.reject <;> simp
  have key : ∀ (w : St X n P) (b1 b2 : Bool), w.t = s.t → w.u = s.u → w.cache.theta = s.cache.theta → w.opts = s.opts → w.cache.dfdu = s.cache.dfdu →
      w.dudt = s.dudt → w.dfdu = s.dfdu → w.params = s.params → w.cache.decompose = s.cache.decompose →
      b1 = w.cache.last → b2 = true → (finishNext w).cache.last = b1 ∧ (finishNext w).cache.decompose = b2 ∧
      (finishNext w).cache.dfdu = fmat (if θ ≤ θ₀ then J else E.jac t v) := by
    rintro w b1 b2 w1 w2 w3 w4 w5 w6 w7 w8 w9 rfl rfl
    simp only [finishNext, w3, w4, hθ, hθ₀, gt_fin]
    by_cases hle : θ ≤ θ₀
    · rw [if_neg (by simpa using hle), if_pos hle]
      exact ⟨rfl, w9.trans hc, w5.trans hJ⟩
    · rw [if_pos (by simpa using hle), if_neg hle]
      refine ⟨rfl, w9.trans hc, ?_⟩
      change (jacobian_u w.dudt w.dfdu w.cache.dfdu w.u w.t w.params).1 = _
      rw [w6, w7, w1, w2, w8, ht, hu, N.jacs]
  simp only [nextStep]
  rw [ec]
  simp only [hf, ht, hh, hd]
  rw [hctl.quot1, hctl.quot2, div_fin hctl.quot1_pos.ne', div_fin h0, add_fin, sub_fin, mul_fin, show (0.0 : X) = fin 0.0 from rfl, ge_fin]
  have e0 : (0.0 : ℝ) = 0 := by norm_num
  rw [e0]
  by_cases hcd : 0 ≤ (t + p / C.q1 - C.tf) * C.d
  · rw [if_pos (by simpa using hcd)]
    refine key _ _ _ ?_ rfl rfl rfl rfl rfl rfl rfl rfl (by simp [hcd]) (by simp [hcd])
    first | rfl | exact ht.symm
  · rw [if_neg (by simpa using hcd)]
    simp only [ge_fin, Bool.and_eq_true, decide_eq_true_eq, hθ, hθ₀, le_fin]
    by_cases hk : (θ ≤ θ₀ ∧ C.q1 ≤ p / h) ∧ Fl.le (fin (p / h)) C.q2 = true
    · rw [if_pos hk]
      refine ⟨by simp [hcd, hl], by simp [hcd, hk], ?_⟩
      rw [if_pos hk.1.1]
      exact hJ
    · rw [if_neg hk]
      refine key _ _ _ ?_ rfl hθ.symm rfl rfl rfl rfl rfl rfl (by simp [hcd, hl]) ?_
      · first | rfl | exact ht.symm
      · rw [Bool.not_eq_true', decide_eq_false_iff_not]
        exact fun hh => hk ⟨⟨hh.2.1, hh.2.2.1⟩, hh.2.2.2⟩

/-- The state between two calls. -/
structure Sim (A : Problem n) (V : Submodule ℝ (_root_.Fin n → ℝ)) (u₀ : _root_.Fin n → ℝ) (fwd : Prop) (σ : State n)
    (s : St X n P) : Prop where
  base : Base A σ s
  num : Num (penv A V u₀) fwd s
  idle : Idle A.C fwd s σ.t σ.h
  ready : Ready s
  faccon : s.cache.faccon = fin σ.η
  dfdu : s.cache.dfdu = fmat σ.J
  dec : s.cache.decompose = σ.fresh
  kept : σ.fresh = false → JOk (penv A V u₀) fwd σ.Jf ∧ Good σ.hf σ.Jf (facsOf s)
  last : s.cache.last = σ.last

theorem Sim.first (H : Sim A V u₀ fwd σ s) : Try A V u₀ fwd σ (σ.first A) (clampLast s) := by
  have hc := clampLast_fields s
  have h4 := hc.2.2.2
  refine ⟨H.base.frame (Frame.clampLast s), H.num.clamp, Clk.cast (H.idle.clamp H.ready.retcode) (tried_val H.idle), ?_, ?_, ?_, ?_,
    hc.1.trans H.ready.reject, ?_⟩
  · rw [h4]; exact H.faccon
  · rw [h4]; exact H.dfdu
  · rw [h4]; exact H.dec
  · unfold facsOf; rw [h4]; exact H.kept
  · unfold clampLast
    simp only [H.idle.time, H.idle.step, H.idle.tfinal, H.idle.tdir]
    rw [show (1.0001 : X) = fin 1.0001 from rfl, show (0.0 : X) = fin 0.0 from rfl, mul_fin, mul_fin, add_fin, sub_fin, ge_fin]
    have e0 : (0.0 : ℝ) = 0 := by norm_num
    rw [e0]
    simp only [State.first]
    by_cases hcd : 0 ≤ σ.t + σ.h * 1.0001 - A.C.tf * A.C.d
    · rw [if_pos (by simpa using hcd)]
      simp [hcd]
    · rw [if_neg (by simpa using hcd)]
      simp [hcd, H.last]

theorem Judged.conts (H : Judged A V u₀ fwd σ x m z θ η err d) (q : X) :
    (acceptStep d q).cache.cont1 = (fv fun i => (z 1 i - z 2 i) / C2M1) ∧
    (acceptStep d q).cache.cont2 = (fv fun i => ((z 0 i - z 1 i) / C1MC2 - (z 1 i - z 2 i) / C2M1) / C1M1) ∧
    (acceptStep d q).cache.cont3 = (fv fun i => ((z 0 i - z 1 i) / C1MC2 - (z 1 i - z 2 i) / C2M1) / C1M1 -
      ((z 0 i - z 1 i) / C1MC2 - z 0 i / C1) / C2) := by
  have ac := acceptStep_cont d q
  rw [H.z1, H.z2, H.z3] at ac
  have c1 : (C2M1 : ℝ) ≠ 0 := by unfold C2M1; norm_num
  have c2 : (C1MC2 : ℝ) ≠ 0 := by unfold C1MC2; norm_num
  have c3 : (C1 : ℝ) ≠ 0 := by unfold C1; norm_num
  have c4 : (C2 : ℝ) ≠ 0 := by unfold C2; norm_num
  have c5 : (C1M1 : ℝ) ≠ 0 := by unfold C1M1; norm_num
  have x1 : (C2M1 : X) = fin C2M1 := rfl
  have x2 : (C1MC2 : X) = fin C1MC2 := rfl
  have x3 : (C1 : X) = fin C1 := rfl
  have x4 : (C2 : X) = fin C2 := rfl
  have x5 : (C1M1 : X) = fin C1M1 := rfl
  simp only [x1, x2, x3, x4, x5, fv_apply, sub_fin, div_fin c1, div_fin c2, div_fin c3, div_fin c4, div_fin c5] at ac
  exact ⟨ac.1, ac.2.1, ac.2.2.1⟩

/-- The step size and the flags after an accepted step which is not the last one. -/
theorem Judged.flags (H : Judged A V u₀ fwd σ x m z θ η err d) (hs : tooSmall d = false) (hl : x.last = false) :
    (acceptStep d (stepQuot d)).dt = fin (next A σ x m z θ η err).h ∧
    (acceptStep d (stepQuot d)).cache.last = (next A σ x m z θ η err).last ∧
    (acceptStep d (stepQuot d)).cache.decompose = (next A σ x m z θ η err).fresh ∧
    (acceptStep d (stepQuot d)).cache.dfdu = fmat (next A σ x m z θ η err).J := by
  have hl' : d.cache.last = false := H.last.trans hl
  have hdt := H.clk.accept_dt hs H.base.par.N H.le H.base.cfac H.pos H.val H.base.recalls hl'
  rw [H.theta, H.base.par.θ₀, le_fin, H.reject, H.newt] at hdt
  refine ⟨hdt, ?_⟩
  have b := acceptState_fields (countAccept d)
  simp only at b
  obtain ⟨-, -, -, -, b5, b6, -, -, -, b10, b11, b12, -, -, -, -, b17, b18, b19, b20, b21, -, b23, -⟩ := b
  have hr : A.C.stepQuot A.N m (σ.memory A) x.h err ≠ 0 := by
    have h1 : A.C.fr ≤ A.C.stepQuot A.N m (σ.memory A) x.h err := by
      cases σ.memory A with
      | none => exact le_max_left _ _
      | some x => exact (le_max_left A.C.fr _).trans (le_max_left _ _)
    exact (H.clk.ctl.facr_pos.trans_le h1).ne'
  have hN : Num (penv A V u₀) fwd (acceptState (countAccept d)) := H.num.acceptState H.clk.step H.ne
  have et : (acceptState (countAccept d)).t = fin (σ.t + x.h) := by
    rw [b6]; change d.t + d.dt = _; rw [H.clk.time, H.clk.step, add_fin]
  have hN' := hN.newDeriv et
  obtain ⟨w, hw⟩ : ∃ w, w = newDeriv (acceptState (countAccept d)) := ⟨_, rfl⟩
  have em : acceptStep d (stepQuot d) = nextStep w (fin (x.h / A.C.stepQuot A.N m (σ.memory A) x.h err)) := by
    rw [hw]
    simp only [acceptStep]
    rw [if_neg (by rw [b17]; simp [Radau.countAccept, hl']),
      stepQuot_val H.clk.ctl H.base.par.N H.le H.base.cfac H.pos H.val H.clk.step H.ne H.base.recalls]
    have : (Radau.countAccept d).dt = fin x.h := H.clk.step
    rw [this, H.newt, div_fin hr]
  have w1 : w.opts = d.opts := by rw [hw]; exact b12
  have w2 : w.tdir = fin A.C.d := by rw [hw]; exact b10.trans H.clk.tdir
  have w3 : w.tfinal = fin A.C.tf := by rw [hw]; exact b11.trans H.clk.tfinal
  have w4 : w.t = fin (σ.t + x.h) := by rw [hw]; exact et
  have w5 : w.u = fv (σ.u + z 2) := by
    rw [hw]; change (acceptState (countAccept d)).u = _
    rw [b5]; change (fun i => d.u i + d.cache.z3 i) = _
    rw [H.base.state, H.z3]; rfl
  have w6 : w.dt = fin x.h := by rw [hw]; exact b19.trans H.clk.step
  have w7 : w.cache.theta = fin θ := by rw [hw]; exact b21.trans H.theta
  have w8 : w.cache.last = false := by rw [hw]; exact b17.trans hl'
  have w9 : w.cache.decompose = true := by rw [hw]; exact b20.trans H.dec
  have w10 : w.cache.dfdu = fmat x.J := by rw [hw]; exact b23.trans H.dfdu
  have w11 : w.cache.reject = x.retried := by rw [hw]; exact b18.trans H.reject
  have w12 : Num (penv A V u₀) fwd w := by rw [hw]; exact hN'
  have k := nextStep_flags w12 (w1 ▸ H.clk.ctl) w2 w3 w4 w5 w6 H.ne (A.C.stepQuot A.N m (σ.memory A) x.h err) w7
    (w1 ▸ H.base.par.θ₀) w8 w9 w10 (p := proposal A σ x m err) (by rw [w11]; rfl)
  rw [em]
  exact k

theorem Judged.state (H : Judged A V u₀ fwd σ x m z θ η err d) : (acceptStep d (stepQuot d)).t = fin (σ.t + x.h) ∧
    (acceptStep d (stepQuot d)).u = fv (σ.u + z 2) := by
  have a := acceptStep_fields d (stepQuot d)
  dsimp only at a
  refine ⟨by rw [a.2.2.2.2.2.1, H.clk.time, H.clk.step, add_fin], ?_⟩
  rw [a.2.2.2.2.1, H.base.state, H.z3]
  rfl

theorem Judged.accept (H : Judged A V u₀ fwd σ x m z θ η err d) (hs : tooSmall d = false) (hl : x.last = false)
    (hc : d.sol.retcode = .Continue) (hr : Ready (acceptStep d (stepQuot d))) :
    Sim A V u₀ fwd (next A σ x m z θ η err) (acceptStep d (stepQuot d)) := by
  obtain ⟨f1, f2, f3, f4⟩ := H.flags hs hl
  obtain ⟨e1, e2⟩ := H.state
  have N' := H.num.accept H.clk.time H.clk.step H.ne (stepQuot d)
  obtain ⟨h', hi, -⟩ := H.clk.accept hs
  obtain rfl : h' = (next A σ x m z θ η err).h := fin_inj.1 (hi.step.symm.trans f1)
  have a := acceptStep_fields d (stepQuot d)
  dsimp only at a
  obtain ⟨-, -, -, -, -, -, -, -, a9, -, -, a12, -, -, -, a16, -, -, -, -, -, a22, a23⟩ := a
  obtain ⟨b1, b2, b3, b4, b5⟩ := acceptStep_memory d (stepQuot d)
  obtain ⟨buf, hbuf⟩ := Derived.accept d (stepQuot d) hc hr.retcode
  have hsc := Scaled.accept d (stepQuot d)
  have P' : Par A (acceptStep d (stepQuot d)).opts := a12 ▸ H.base.par
  obtain ⟨k1, k2, k3⟩ := H.conts (stepQuot d)
  refine ⟨⟨e1, e2, ?_, ?_, P', a23, a22, b3.trans H.base.cfac, ?_, ?_⟩, N', hi, hr, (acceptStep_faccon _ _).trans H.faccon, f4, f3,
    fun _ => ⟨H.jokm, by rw [acceptStep_facs]; exact H.good⟩, f2⟩
  · rw [hbuf, e1, e2, N'.lifts]
    rfl
  · rw [show (acceptStep d (stepQuot d)).cache.scal = _ from hsc, P'.a, P'.r, e2]
    rfl
  · rw [a16]; simp [next]
  · intro p hp
    obtain rfl : (⟨σ.t, x.h, err, σ.u, z⟩ : Past n) = p := Option.some.inj hp
    refine ⟨a9.trans H.clk.step, k1, k2, k3, fun hpr => ?_⟩
    have hm : d.opts.modern_pred = true := H.base.par.pred.trans hpr
    rw [b4, b5, if_pos hm, if_pos hm, H.val, X.sci, max_fin]
    exact ⟨H.clk.step, rfl⟩

/-- A call of `step` follows the specification. -/
theorem Sim.step (hA : Coded A) {fuel : ℕ} (H : Sim A V u₀ fwd σ s) (h : Radau.step fuel s = .ok s')
    (ha : s'.sol.retcode = .Continue ∨ s'.sol.retcode = .Success) :
    (s'.sol.retcode = .Continue → ∃ σ', Step A σ σ' ∧ Sim A V u₀ fwd σ' s') ∧
    (s'.sol.retcode = .Success → ∃ t u, Finish A σ t u ∧ s'.t = fin t ∧ s'.u = fv u) := by
  obtain ⟨k, a, s1, s2, at', sp, D⟩ | hf := step_done H.ready h
  swap
  · exact absurd ha (by rintro (h | h); exacts [hf.1 h, hf.2.1 h])
  obtain ⟨x, R, T, hx⟩ := H.first.atts hA (fun h => absurd h (by simp [State.first])) at'
  obtain ⟨fuel1, hdec⟩ := D.dec
  obtain ⟨x1, R1, T1⟩ := T.decPhase hA hx hdec D.small
  obtain ⟨m, z, θ, η, err, Jd⟩ := T1.judged hA D.newton
  have herr : err < 1 := by
    have := D.err
    rw [Jd.val, X.sci, lt_fin] at this
    have := of_decide_eq_true this
    norm_num at this
    exact this
  have hacc : Accepts A σ x1 m z θ η err := ⟨R.trans R1, Jd.newton, herr, Jd.error⟩
  have r1 := decPhase_retcode hdec
  simp at r1
  have hcode : (decided s2).sol.retcode = .Continue := by
    rw [decided_sol, (newton_sol D.newton).1]
    change s1.sol.retcode = _
    rw [r1, sp.retcode, (clampLast_fields s).2.1, H.ready.retcode]
  have hsm : tooSmall (decided s2) = false := by
    unfold tooSmall
    rw [Jd.clk.time, Jd.clk.step, ← T1.clk.time, ← T1.clk.step]
    exact D.small
  have af := acceptStep_fields (decided s2) (stepQuot (decided s2))
  dsimp only at af
  have hret := af.2.2.2.2.2.2.2.2.2.2.2.2.2.2.1
  rw [← D.eq, Jd.last, hcode] at hret
  refine ⟨fun hC => ?_, fun hS => ?_⟩
  · have hl : x1.last = false := by
      cases hl : x1.last with
      | false => rfl
      | true => rw [hret, hl] at hC; simp at hC
    have hr := H.ready.step h hC
    refine ⟨_, ⟨x1, m, z, θ, η, err, hacc, hl, rfl⟩, ?_⟩
    rw [D.eq] at hr ⊢
    exact Jd.accept hsm hl hcode hr
  · have hl : x1.last = true := by
      cases hl : x1.last with
      | true => rfl
      | false => rw [hret, hl] at hS; simp at hS
    refine ⟨_, _, ⟨x1, m, z, θ, η, err, hacc, hl, rfl, rfl⟩, ?_⟩
    rw [D.eq]
    exact Jd.state
end

end
end
end Radau
end Cyphus
