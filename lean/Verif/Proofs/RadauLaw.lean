import Verif.Proofs.RadauX
import Verif.Spec.RadauLaw
/-!
# The step-size controller of `Radau5`
-/

namespace Cyphus
namespace Radau
set_option autoImplicit false
set_option linter.unusedSectionVars false

section
variable {F : Type} {n : Nat} {P : Type}
  [Add F] [Sub F] [Mul F] [Div F] [Neg F] [OfScientific F] [Fl F]

/-- What the controller remembers of an accepted step. -/
theorem acceptStep_memory (s : St F n P) (q : F) : (acceptStep s q).cache.newt = s.cache.newt ∧
    (acceptStep s q).cache.theta = s.cache.theta ∧ (acceptStep s q).cache.cfac = s.cache.cfac ∧
    (acceptStep s q).cache.dtacc = (if s.opts.modern_pred then s.dt else s.cache.dtacc) ∧
    (acceptStep s q).cache.erracc = (if s.opts.modern_pred then Fl.max 1e-2 s.cache.err else s.cache.erracc) := by
  have h1 : (acceptState (countAccept s)).cache.newt = s.cache.newt ∧ (acceptState (countAccept s)).cache.theta = s.cache.theta ∧
      (acceptState (countAccept s)).cache.cfac = s.cache.cfac ∧
      (acceptState (countAccept s)).cache.dtacc = (if s.opts.modern_pred then s.dt else s.cache.dtacc) ∧
      (acceptState (countAccept s)).cache.erracc = (if s.opts.modern_pred then Fl.max 1e-2 s.cache.err else s.cache.erracc) := by
    cases hm : s.opts.modern_pred <;> simp [acceptState, countAccept, hm]
  let m : St F n P → Nat × F × F × F × F := fun s => (s.cache.newt, s.cache.theta, s.cache.cfac, s.cache.dtacc, s.cache.erracc)
  have h2 : ∀ s : St F n P, m (finishNext s) = m s := by
    intro s; simp only [finishNext]; split <;> rfl
  have h3 : ∀ (s : St F n P) d, m (nextStep s d) = m s := by
    intro s d; simp only [nextStep]; split
    · rw [h2]
    · split
      · rfl
      · rw [h2]
  have h4 : m (acceptStep s q) = m (acceptState (countAccept s)) := by
    simp only [acceptStep]
    split
    · rfl
    · rw [h3]; rfl
  simp only [m, Prod.mk.injEq] at h4
  obtain ⟨a, b, c, d, e⟩ := h4
  rw [a, b, c, d, e]
  exact h1

theorem newtonLoop_newt {fuel : Nat} {s s' : St F n P} {d : F} (h : newtonLoop fuel s d = .ok (s', true)) :
    1 ≤ s'.cache.newt ∧ s'.cache.newt ≤ s.opts.max_newt_iter := by
  induction fuel generalizing s d with
  | zero => simp [Radau.newtonLoop] at h
  | succ f ih =>
    simp only [Radau.newtonLoop] at h
    split at h
    · simp at h
    · rename_i hn
      have h1 := newtonCheck_newt (newtonSolve (newtonRhs s)) (newtonNorm (newtonSolve (newtonRhs s))) d
      have h2 := (Frame.newtonCheck (newtonSolve (newtonRhs s)) (newtonNorm (newtonSolve (newtonRhs s))) d).opts
      have h0 : (newtonSolve (newtonRhs s)).cache.newt = s.cache.newt + 1 := rfl
      split at h
      · simp at h
      · split at h
        · simp only [Res.ok.injEq, Prod.mk.injEq, and_true] at h
          rw [← h]
          simp only [newtonUpdate, h1, h0]
          omega
        · have := ih h
          simp only [newtonUpdate, h2] at this
          exact this

theorem newton_newt {s s' : St F n P} (h : newton s = .ok (s', true)) :
    1 ≤ s'.cache.newt ∧ s'.cache.newt ≤ s.opts.max_newt_iter := by
  rw [newton_eq] at h
  have := newtonLoop_newt h
  rw [(Frame.newtonInit s).opts] at this
  exact this

theorem error_estimate_err (s : St F n P) : ∃ y, (error_estimate s).cache.err = Fl.max y 1.0e-10 := by
  simp only [error_estimate]
  split
  · exact ⟨_, rfl⟩
  · split <;> exact ⟨_, rfl⟩

/-- The number of iterations and the error of an accepted step. -/
theorem Fin.bounds {s s' : St F n P} (h : Fin s s') (ha : s'.stats.accepts ≠ s.stats.accepts) :
    1 ≤ s'.cache.newt ∧ s'.cache.newt ≤ s.opts.max_newt_iter ∧ ∃ y, s'.cache.err = Fl.max y 1.0e-10 := by
  cases h with
  | singular h1 => exact absurd (Frame.decPhase h1).accepts ha
  | maxIters h1 => exact absurd (Frame.decPhase h1).accepts ha
  | small h1 => exact absurd (Frame.decPhase h1).accepts ha
  | @done s1 s2 fuel h1 h2 h3 h4 h5 =>
    have o1 := (Frame.decPhase h1).opts
    have b := newton_newt h4
    have e1 : (decided s2).cache.newt = s2.cache.newt := (error_estimate_sol s2).2.2.2.2.2.2.2.2.2.2.2.2.2
    rw [control_eq]
    split
    · rw [(acceptStep_memory _ _).1, acceptStep_err, e1]
      refine ⟨b.1, ?_, error_estimate_err s2⟩
      rw [← o1]; exact b.2
    · rename_i hlt
      rw [control_eq, if_neg hlt, (rejectStep_fields _ _).2.2.1] at h5
      simp at h5

end

open X
noncomputable section
variable {n : ℕ} {P : Type}

section
variable {C : Clock} {fwd : Prop} {s : St X n P} {t h : ℝ}

open Classical in
/-- The next step after an accepted step which is not the last one. -/
theorem nextStep_dt (hctl : Ctl C s.opts) (hd : s.tdir = fin C.d) (hf : s.tfinal = fin C.tf)
    (ht : s.t = fin t) (hh : s.dt = fin h) (h0 : h ≠ 0) (q : ℝ) : (nextStep s (fin (h / q))).dt =
      fin (if 0 ≤ (t + C.proposal s.cache.reject h q / C.q1 - C.tf) * C.d then C.tf - t
        else if Fl.le s.cache.theta s.opts.theta = true ∧ C.q1 ≤ C.proposal s.cache.reject h q / h ∧
          Fl.le (fin (C.proposal s.cache.reject h q / h)) C.q2 = true then h else C.proposal s.cache.reject h q) := by
  have ec : capStep s (fin (h / q)) = fin (C.proposal s.cache.reject h q) := by
    unfold capStep Clock.proposal
    rw [hctl.cap_eq, hd, mul_fin, hh]
    cases s.cache.reject <;> simp
  simp only [nextStep]
  rw [ec]
  generalize C.proposal s.cache.reject h q = x
  simp only [hd, hf, ht, hh]
  rw [hctl.quot1, hctl.quot2, div_fin hctl.quot1_pos.ne', div_fin h0, add_fin, sub_fin, mul_fin, show (0.0 : X) = fin 0.0 from rfl, ge_fin]
  have e0 : (0.0 : ℝ) = 0 := by norm_num
  rw [e0]
  by_cases hc : 0 ≤ (t + x / C.q1 - C.tf) * C.d
  · rw [if_pos (by simpa using hc), if_pos hc, (finishNext_fields _).2.2.2.2.2.2.2.2.2.2.2.2.2.2.2.2.2.2.1, sub_fin]
  · rw [if_neg (by simpa using hc), if_neg hc]
    simp only [ge_fin, Bool.and_eq_true, decide_eq_true_eq]
    by_cases hk : (Fl.le s.cache.theta s.opts.theta = true ∧ C.q1 ≤ x / h) ∧ Fl.le (fin (x / h)) C.q2 = true
    · rw [if_pos hk, if_pos ⟨hk.1.1, hk.1.2, hk.2⟩]
    · rw [if_neg hk, if_neg fun h => hk ⟨⟨h.1, h.2.1⟩, h.2.2⟩, (finishNext_fields _).2.2.2.2.2.2.2.2.2.2.2.2.2.2.2.2.2.2.1]

theorem Closed.and {I J : St X n P → Prop} (a : Closed I) (b : Closed J) : Closed (fun s => I s ∧ J s) where
  facs h := ⟨a.facs h.1, b.facs h.2⟩
  real h e := ⟨a.real h.1 e, b.real h.2 e⟩
  cplx h e := ⟨a.cplx h.1 e, b.cplx h.2 e⟩
  count h := ⟨a.count h.1, b.count h.2⟩
  fail h := ⟨a.fail h.1, b.fail h.2⟩
  init h := ⟨a.init h.1, b.init h.2⟩
  rhs h := ⟨a.rhs h.1, b.rhs h.2⟩
  solve h e := ⟨a.solve h.1 e, b.solve h.2 e⟩
  theta x y z h := ⟨a.theta x y z h.1, b.theta x y z h.2⟩
  slow d h e f := ⟨a.slow d h.1 e f, b.slow d h.2 e f⟩
  halve h := ⟨a.halve h.1, b.halve h.2⟩
  upd h := ⟨a.upd h.1, b.upd h.2⟩
  err1 h := ⟨a.err1 h.1, b.err1 h.2⟩
  err2 h := ⟨a.err2 h.1, b.err2 h.2⟩
  decomp h := ⟨a.decomp h.1, b.decomp h.2⟩

/-- What the rules for failed attempts rely on. -/
structure Tries (C : Clock) (N : ℕ) (first : Bool) (h0 : ℝ) (s : St X n P) (h : ℝ) : Prop where
  ctl : Ctl C s.opts
  iter : s.opts.max_newt_iter = N
  start : s.cache.first = first
  newt : s.cache.newt ≤ N
  cfac : s.cache.cfac = fin (C.sf * (1 + 2 * N))
  step : s.dt = fin h
  path : Relation.ReflTransGen (C.Retry N first) h0 h
  fresh : s.cache.reject = false → h = h0
  again : s.cache.reject = true → Relation.TransGen (C.Retry N first) h0 h

section
variable {N : ℕ} {first : Bool} {h0 : ℝ}

theorem classic_val (hctl : Ctl C s.opts) (hi : s.opts.max_newt_iter = N) (hN : 1 ≤ N)
    (hc : s.cache.cfac = fin (C.sf * (1 + 2 * N))) {e : ℝ} (e0 : 0 < e) (he : s.cache.err = fin e) :
    stepQuot s = fin (C.classic N s.cache.newt e) := by
  unfold stepQuot Clock.classic Clock.clip
  simp only [hctl.facr, hctl.facl, hctl.safe, hc, hi, he, ofNat_fin]
  have h1 : (0 : ℝ) < (s.cache.newt + 2 * N : ℕ) := by
    have : 0 < s.cache.newt + 2 * N := by omega
    exact_mod_cast this
  have h2 : 0 < C.sf * (1 + 2 * N) / ((s.cache.newt + 2 * N : ℕ) : ℝ) := div_pos (mul_pos hctl.safe_pos (by positivity)) h1
  have h3 : 0 < min C.sf (C.sf * (1 + 2 * N) / ((s.cache.newt + 2 * N : ℕ) : ℝ)) := lt_min hctl.safe_pos h2
  rw [div_fin h1.ne', min_fin, X.sci, powf_fin e0, div_fin h3.ne', min_fin, max_fin]
  norm_num

theorem Tries.retry (H : Tries C N first h0 s h) {s' : St X n P} {h' : ℝ} (ho : s'.opts = s.opts)
    (hf : s'.cache.first = s.cache.first) (hn : s'.cache.newt = s.cache.newt) (hc : s'.cache.cfac = s.cache.cfac)
    (e : s'.dt = fin h') (hr : s'.cache.reject = true) (a : C.Retry N first h h') : Tries C N first h0 s' h' :=
  ⟨ho ▸ H.ctl, ho ▸ H.iter, hf.trans H.start, hn ▸ H.newt, hc.trans H.cfac, e, H.path.tail a, by simp [hr],
    fun _ => .tail' H.path a⟩

theorem Tries.halve (H : Tries C N first h0 s h) : Tries C N first h0 (halveStep s) (h / 2) := by
  have e : (halveStep s).dt = s.dt * 0.5 ∧ (halveStep s).cache.newt = s.cache.newt := by
    simp only [halveStep]; split <;> exact ⟨rfl, rfl⟩
  refine H.retry (Frame.halveStep s).opts (Frame.halveStep s).first e.2 (Frame.halveStep s).cfac ?_
    (halveStep_flags s).1 .half
  rw [e.1, H.step, X.sci, mul_fin]
  congr 1
  norm_num
  ring

theorem Tries.slow (H : Tries C N first h0 s h) {d : X} (hn : s.cache.newt < s.opts.max_newt_iter)
    (hd : Fl.ge d 1.0 = true) : ∃ h', Tries C N first h0 (slowStep s d) h' := by
  obtain ⟨q, hq, hq1, hq2⟩ : ∃ q, Fl.max 1e-4 (Fl.min 20.0 d) = fin q ∧ 1 ≤ q ∧ q ≤ 20 := by
    obtain ⟨q, a, b⟩ := clamp_ge (fl := 20.0) (fr := 1e-4) (c := 1) (by norm_num) d (by
      rintro y rfl
      rw [show (1.0 : X) = fin 1.0 from rfl, ge_fin] at hd
      have : (1.0 : ℝ) ≤ y := by simpa using hd
      norm_num at this
      exact this) (by
      rintro rfl
      rw [show Fl.ge ninf (1.0 : X) = false from rfl] at hd
      simp at hd)
    obtain ⟨q', a', -, b'⟩ := clamp_val (fl := 20.0) (fr := 1e-4) d
    rw [a, fin_inj] at a'
    subst a'
    refine ⟨q, a, b, b'.trans ?_⟩
    norm_num
  have hk : (((4 + s.opts.max_newt_iter - 1 - s.cache.newt : ℕ)) : ℝ) = N + 3 - s.cache.newt := by
    rw [← H.iter, eq_sub_iff_add_eq]
    have : 4 + s.opts.max_newt_iter - 1 - s.cache.newt + s.cache.newt = s.opts.max_newt_iter + 3 := by omega
    exact_mod_cast this
  have hk' : (N + 3 - s.cache.newt : ℝ) ≠ 0 := by
    have : (s.cache.newt : ℝ) < N := by rw [H.iter] at hn; exact_mod_cast hn
    linarith
  have e1 : (0.8 : X) * Fl.powf (Fl.max 1e-4 (Fl.min 20.0 d))
      (-1.0 / Fl.ofNat (4 + s.opts.max_newt_iter - 1 - s.cache.newt)) = fin (0.8 * q ^ (-1 / (N + 3 - s.cache.newt) : ℝ)) := by
    rw [hq, ofNat_fin, hk, show (-1.0 : X) = fin (-1.0) from rfl, div_fin hk', powf_fin (by linarith), X.sci, mul_fin]
    norm_num
  have e : (slowStep s d).dt = fin (h * (0.8 * q ^ (-1 / (N + 3 - s.cache.newt) : ℝ))) ∧
      (slowStep s d).cache.newt = s.cache.newt := by
    simp only [slowStep]
    rw [e1]
    split <;> exact ⟨by change s.dt * fin _ = _; rw [H.step]; rfl, rfl⟩
  exact ⟨_, H.retry (Frame.slowStep s d).opts (Frame.slowStep s d).first e.2 (Frame.slowStep s d).cfac e.1
    (slowStep_flags s d).1 (.slow hq1 hq2 (H.iter ▸ hn))⟩

theorem Tries.reject (H : Tries C N first h0 s h) (hN : 1 ≤ N) (he : Fl.lt s.cache.err 1.0 = false) :
    ∃ h', Tries C N first h0 (rejectStep s (stepQuot s)) h' := by
  have f := Frame.rejectStep s (stepQuot s)
  have r := rejectStep_fields s (stepQuot s)
  have en : (rejectStep s (stepQuot s)).cache.newt = s.cache.newt := by
    simp only [rejectStep]
    split <;> split <;> rfl
  have hdt := r.2.2.2.2.2.2.2.2.2
  rw [H.step, H.start] at hdt
  have go : ∀ {h'}, (rejectStep s (stepQuot s)).dt = fin h' → C.Retry N first h h' →
      ∃ h', Tries C N first h0 (rejectStep s (stepQuot s)) h' :=
    fun e a => ⟨_, H.retry f.opts f.first en f.cfac e r.2.2.1 a⟩
  cases hf : first with
  | true =>
    rw [hf, if_pos rfl] at hdt
    subst hf
    refine go (hdt.trans ?_) (.start rfl)
    rw [X.sci, mul_fin]
    congr 1
    norm_num
    ring
  | false =>
    rw [hf, if_neg (by simp)] at hdt
    subst hf
    have hm : ∀ x : X, x = nan ∨ x = pinf → s.cache.err = x → stepQuot s = fin (max C.fr C.fl) := by
      intro x hx hq
      obtain ⟨y, ey, y0, -⟩ := fac_val H.ctl.safe H.ctl.safe_pos (cf := C.sf * (1 + 2 * N))
        (mul_pos H.ctl.safe_pos (by positivity)) (s.cache.newt + 2 * s.opts.max_newt_iter)
      unfold stepQuot
      simp only [H.ctl.facr, H.ctl.facl, H.cfac, ey, hq]
      rcases hx with rfl | rfl
      · have : Fl.powf nan (0.25 : X) = nan := by
          change powX nan (fin 0.25) = nan
          unfold powX
          rw [if_neg (by simp; norm_num)]
        rw [this]
        change Fl.max (fin C.fr) (fin C.fl) = _; simp
      · have : Fl.powf pinf (0.25 : X) = pinf := by
          change powX pinf (fin 0.25) = pinf
          unfold powX
          rw [if_neg (by simp; norm_num)]
          simp
          norm_num
        rw [this]
        change Fl.max (fin C.fr) (Fl.min (fin C.fl) (if y < 0 then ninf else pinf)) = _
        rw [if_neg (not_lt.2 y0.le)]
        change Fl.max (fin C.fr) (fin C.fl) = _; simp
    have hq0 : max C.fr C.fl ≠ 0 := (lt_max_of_lt_left H.ctl.facr_pos).ne'
    cases hx : s.cache.err with
    | nan => exact go (hdt.trans (by rw [hm _ (.inl rfl) hx, div_fin hq0])) (.invalid rfl)
    | pinf => exact go (hdt.trans (by rw [hm _ (.inr rfl) hx, div_fin hq0])) (.invalid rfl)
    | ninf => rw [hx, show Fl.lt ninf (1.0 : X) = true from rfl] at he; simp at he
    | fin e =>
      have he' : 1 ≤ e := by
        rw [hx, X.sci, lt_fin] at he
        have : ¬ e < 1.0 := by simpa using he
        norm_num at this
        exact this
      have hc : C.classic N s.cache.newt e ≠ 0 := (H.ctl.facr_pos.trans_le (le_max_left _ _)).ne'
      exact go (hdt.trans (by rw [classic_val H.ctl H.iter hN H.cfac (by linarith) hx, div_fin hc]))
        (.error rfl he' H.newt)

theorem Tries.closed : Closed (fun s : St X n P => ∃ h, Tries C N first h0 s h) where
  facs := fun ⟨h, H⟩ => ⟨h, ⟨H.1, H.2, H.3, H.4, H.5, H.6, H.7, H.8, H.9⟩⟩
  real := fun ⟨h, H⟩ e => by
    obtain ⟨r, -, rfl⟩ := decomp_real_ok e
    exact ⟨h, ⟨H.1, H.2, H.3, H.4, H.5, H.6, H.7, H.8, H.9⟩⟩
  cplx := fun ⟨h, H⟩ e => by
    obtain ⟨r, -, rfl⟩ := decomp_complex_ok e
    exact ⟨h, ⟨H.1, H.2, H.3, H.4, H.5, H.6, H.7, H.8, H.9⟩⟩
  count := fun ⟨h, H⟩ => ⟨h, ⟨H.1, H.2, H.3, H.4, H.5, H.6, H.7, H.8, H.9⟩⟩
  fail := fun {s} ⟨h, H⟩ => by
    simp only [decFail]
    split
    · exact ⟨h, ⟨H.1, H.2, H.3, H.4, H.5, H.6, H.7, H.8, H.9⟩⟩
    · exact ⟨_, Tries.halve ⟨H.1, H.2, H.3, H.4, H.5, H.6, H.7, H.8, H.9⟩⟩
  init := fun {s} ⟨h, H⟩ => by
    simp only [newtonInit, prepare_newton]
    split <;> exact ⟨h, ⟨H.1, H.2, H.3, Nat.zero_le _, H.5, H.6, H.7, H.8, H.9⟩⟩
  rhs := fun ⟨h, H⟩ => ⟨h, ⟨H.1, H.2, H.3, H.4, H.5, H.6, H.7, H.8, H.9⟩⟩
  solve := fun ⟨h, H⟩ hn => ⟨h, ⟨H.1, H.2, H.3, H.iter ▸ Nat.succ_le_of_lt hn, H.5, H.6, H.7, H.8, H.9⟩⟩
  theta := fun _ _ _ ⟨h, H⟩ => ⟨h, ⟨H.1, H.2, H.3, H.4, H.5, H.6, H.7, H.8, H.9⟩⟩
  slow := fun _ ⟨_, H⟩ hn hd => H.slow hn hd
  halve := fun ⟨_, H⟩ => ⟨_, H.halve⟩
  upd := fun ⟨h, H⟩ => ⟨h, ⟨H.1, H.2, H.3, H.4, H.5, H.6, H.7, H.8, H.9⟩⟩
  err1 := fun ⟨h, H⟩ => ⟨h, ⟨H.1, H.2, H.3, H.4, H.5, H.6, H.7, H.8, H.9⟩⟩
  err2 := fun ⟨h, H⟩ => ⟨h, ⟨H.1, H.2, H.3, H.4, H.5, H.6, H.7, H.8, H.9⟩⟩
  decomp := fun ⟨h, H⟩ => ⟨h, ⟨H.1, H.2, H.3, H.4, H.5, H.6, H.7, H.8, H.9⟩⟩

end
/-- The controller's memory of the accepted step before. -/
def Recalls (s : St X n P) (k : ℕ) (prev : Option (ℝ × ℝ)) : Prop :=
  match prev with
  | none => (s.opts.modern_pred && decide (0 < k)) = false
  | some (hp, ep) => (s.opts.modern_pred && decide (0 < k)) = true ∧ s.cache.dtacc = fin hp ∧
      s.cache.erracc = fin (max 1e-2 ep)

theorem stepQuot_val {N : ℕ} (hctl : Ctl C s.opts) (hi : s.opts.max_newt_iter = N) (hN : 1 ≤ N)
    (hc : s.cache.cfac = fin (C.sf * (1 + 2 * N))) {e : ℝ} (e0 : 0 < e) (he : s.cache.err = fin e)
    (hh : s.dt = fin h) (h0 : h ≠ 0) {prev : Option (ℝ × ℝ)} (hp : Recalls s s.stats.accepts prev) :
    stepQuotPred (countAccept s) (stepQuot s) = fin (C.stepQuot N s.cache.newt prev h e) := by
  rw [classic_val hctl hi hN hc e0 he]
  unfold stepQuotPred
  have ea : ((Radau.countAccept s).opts.modern_pred && decide ((Radau.countAccept s).stats.accepts > 1)) =
      (s.opts.modern_pred && decide (0 < s.stats.accepts)) := by
    simp [Radau.countAccept]
  rw [ea]
  cases prev with
  | none =>
    change (_ && _) = false at hp
    rw [hp, if_neg (by simp)]
    rfl
  | some x =>
    obtain ⟨hp, ep⟩ := x
    obtain ⟨h1, h2, h3⟩ := hp
    have hm : (0 : ℝ) < max 1e-2 ep := lt_max_of_lt_left (by norm_num)
    rw [h1, if_pos rfl]
    simp only [Radau.countAccept, h2, h3, hh, he, hctl.facr, hctl.facl, hctl.safe]
    rw [powi_two, div_fin h0, div_fin hm.ne', X.sci, powf_fin (by positivity), mul_fin, div_fin hctl.safe_pos.ne', min_fin,
      max_fin, max_fin]
    have : (0.25 : ℝ) = 1 / 4 := by norm_num
    rw [this]
    rfl

/-- The next step after an accepted step that is not the last one. -/
theorem Clk.accept_dt (H : Clk C fwd s t h) (hs : tooSmall s = false) {N : ℕ} (hi : s.opts.max_newt_iter = N) (hN : 1 ≤ N)
    (hc : s.cache.cfac = fin (C.sf * (1 + 2 * N))) {e : ℝ} (e0 : 0 < e) (he : s.cache.err = fin e)
    {prev : Option (ℝ × ℝ)} (hp : Recalls s s.stats.accepts prev) (hl : s.cache.last = false) :
    (acceptStep s (stepQuot s)).dt = fin (C.next (Fl.le s.cache.theta s.opts.theta) (t + h) h
      (C.proposal s.cache.reject h (C.stepQuot N s.cache.newt prev h e))) := by
  have h0 := H.step_ne hs
  have b := acceptState_fields (Radau.countAccept s)
  simp only at b
  obtain ⟨-, -, -, -, -, b6, -, -, -, b10, b11, b12, -, -, -, -, b17, b18, b19, -⟩ := b
  have et : (acceptState (Radau.countAccept s)).cache.theta = s.cache.theta := by
    cases hm : s.opts.modern_pred <;> simp [acceptState, Radau.countAccept, hm]
  have hr : C.stepQuot N s.cache.newt prev h e ≠ 0 := by
    have h1 : C.fr ≤ C.stepQuot N s.cache.newt prev h e := by
      cases prev with
      | none => exact le_max_left _ _
      | some x => exact (le_max_left C.fr _).trans (le_max_left _ _)
    exact (H.ctl.facr_pos.trans_le h1).ne'
  set m := newDeriv (acceptState (Radau.countAccept s)) with hm
  have em : acceptStep s (stepQuot s) = nextStep m (fin (h / C.stepQuot N s.cache.newt prev h e)) := by
    simp only [acceptStep]
    rw [if_neg (by rw [b17]; simp [Radau.countAccept, hl]), stepQuot_val H.ctl hi hN hc e0 he H.step h0 hp]
    have : (Radau.countAccept s).dt = fin h := H.step
    rw [this, div_fin hr]
  have mo : m.opts = s.opts := by rw [hm]; simp only [newDeriv]; rw [b12]; rfl
  have mt : m.cache.theta = s.cache.theta := et
  have mr : m.cache.reject = s.cache.reject := by rw [hm]; simp only [newDeriv]; rw [b18]; rfl
  rw [em, nextStep_dt (C := C) (s := m) (t := t + h) (h := h) (mo ▸ H.ctl)
    (by rw [hm]; simp only [newDeriv]; rw [b10]; exact H.tdir)
    (by rw [hm]; simp only [newDeriv]; rw [b11]; exact H.tfinal)
    (by rw [hm]; simp only [newDeriv]; rw [b6]; change s.t + s.dt = _; rw [H.time, H.step, add_fin])
    (by rw [hm]; simp only [newDeriv]; rw [b19]; exact H.step) h0, mo, mt, mr]
  rfl

end
end
end Radau
end Cyphus
