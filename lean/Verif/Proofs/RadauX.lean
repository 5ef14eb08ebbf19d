import Verif.Proofs.RadauStep
import Verif.Proofs.RunInv
import Verif.Spec.Problem
/-!
# Times and step sizes of `Radau5` in exact arithmetic with special values

Nothing is assumed about the right-hand side: its values may be NaN or infinite.
-/

namespace Cyphus
namespace Radau
open X
set_option autoImplicit false
set_option linter.unusedSectionVars false
noncomputable section
variable {n : ℕ} {P : Type}

/-- What the controller relies on. `fwd` selects the invariant of forward runs with sane options. -/
structure Clk (C : Clock) (fwd : Prop) (s : St X n P) (t h : ℝ) : Prop where
  ctl : Ctl C s.opts
  tdir : s.tdir = fin C.d
  tfinal : s.tfinal = fin C.tf
  time : s.t = fin t
  step : s.dt = fin h
  dtopt : ∃ x, s.cache.dtopt = fin x ∧ (fwd → 0 ≤ x)
  cfac : ∃ x, s.cache.cfac = fin x ∧ 0 < x
  last : s.cache.last = true → h = C.tf - t
  sane : fwd → C.Sane
  pos : fwd → 0 ≤ h
  room : fwd → t + h ≤ C.tf
  dir : fwd → C.d = 1

/-! ### The values of the controller -/

theorem clamp_val {fl fr : ℝ} (x : X) : ∃ q, Fl.max (fin fr) (Fl.min (fin fl) x) = fin q ∧ fr ≤ q ∧ q ≤ max fr fl := by
  cases x with
  | nan => exact ⟨max fr fl, by rw [show Fl.min (fin fl) nan = fin fl from rfl, max_fin], le_max_left _ _, le_rfl⟩
  | pinf =>
    refine ⟨max fr fl, ?_, le_max_left _ _, le_rfl⟩
    rw [show Fl.min (fin fl) pinf = fin fl from rfl, max_fin]
  | ninf =>
    refine ⟨fr, ?_, le_rfl, le_max_left _ _⟩
    rw [show Fl.min (fin fl) ninf = ninf from rfl]
    rfl
  | fin y => exact ⟨max fr (min fl y), by rw [min_fin, max_fin], le_max_left _ _,
      max_le_max le_rfl (min_le_left _ _)⟩

theorem clamp_ge {fl fr c : ℝ} (hc : c ≤ fl) (x : X) (hx : ∀ y, x = fin y → c ≤ y) (hn : x ≠ ninf) :
    ∃ q, Fl.max (fin fr) (Fl.min (fin fl) x) = fin q ∧ c ≤ q := by
  cases x with
  | nan => exact ⟨max fr fl, by rw [show Fl.min (fin fl) nan = fin fl from rfl, max_fin], le_max_of_le_right hc⟩
  | pinf =>
    refine ⟨max fr fl, ?_, le_max_of_le_right hc⟩
    rw [show Fl.min (fin fl) pinf = fin fl from rfl, max_fin]
  | ninf => exact absurd rfl hn
  | fin y => exact ⟨max fr (min fl y), by rw [min_fin, max_fin], le_max_of_le_right (le_min hc (hx y rfl))⟩

section
variable {C : Clock} {fwd : Prop} {s : St X n P} {t h : ℝ}

/-- `fac` in the controller. -/
theorem fac_val {o : X} {sf cf : ℝ} (ho : o = fin sf) (hs : 0 < sf) (hc : 0 < cf) (k : ℕ) :
    ∃ y, Fl.min o (fin cf / Fl.ofNat k) = fin y ∧ 0 < y ∧ y ≤ sf := by
  subst ho
  rw [ofNat_fin]
  by_cases hk : (k : ℝ) = 0
  · rw [hk, div_fin_zero, infSign, if_pos hc]
    exact ⟨sf, rfl, hs, le_rfl⟩
  · rw [div_fin hk, min_fin]
    have : 0 < cf / k := div_pos hc (lt_of_le_of_ne (Nat.cast_nonneg k) (Ne.symm hk))
    exact ⟨_, rfl, lt_min hs this, min_le_left _ _⟩

theorem Clk.quot (H : Clk C fwd s t h) : ∃ q, stepQuot s = fin q ∧ C.fr ≤ q ∧ q ≤ max C.fr C.fl := by
  unfold stepQuot
  simp only [H.ctl.facr, H.ctl.facl]
  exact clamp_val _

/-- A rejected attempt does not enlarge the step. -/
theorem Clk.quot_reject (H : Clk C fwd s t h) (hS : C.Sane) (he : Fl.lt s.cache.err 1.0 = false) :
    ∃ q, stepQuot s = fin q ∧ 1 ≤ q := by
  unfold stepQuot
  simp only [H.ctl.facr, H.ctl.facl]
  obtain ⟨cf, e1, hcf⟩ := H.cfac
  obtain ⟨y, e2, hy, hy'⟩ := fac_val H.ctl.safe H.ctl.safe_pos hcf
    (s.cache.newt + 2 * s.opts.max_newt_iter)
  rw [e1, e2]
  have hy1 : y ≤ 1 := hy'.trans hS.safe
  have e4 : (0.25 : X) = fin 0.25 := rfl
  generalize s.cache.err = e at he
  apply clamp_ge hS.facl
  · intro z hz
    cases e with
    | nan =>
      rw [e4] at hz
      have : Fl.powf nan (fin 0.25) = nan := by
        change powX nan (fin 0.25) = nan
        unfold powX
        rw [if_neg (by simp; norm_num)]
      rw [this] at hz
      change nan = _ at hz
      simp at hz
    | ninf => exact absurd he (by change ¬ ltX ninf (fin _) = false; simp [ltX])
    | pinf =>
      rw [e4] at hz
      have : Fl.powf pinf (fin 0.25) = pinf := by
        change powX pinf (fin 0.25) = pinf
        unfold powX
        rw [if_neg (by simp; norm_num)]
        simp
        norm_num
      rw [this] at hz
      change (if y < 0 then ninf else pinf) = _ at hz
      rw [if_neg (not_lt.2 hy.le)] at hz
      simp at hz
    | fin e =>
      have he' : 1 ≤ e := by
        rw [show (1.0 : X) = fin 1.0 from rfl, lt_fin] at he
        have : ¬ e < 1.0 := by simpa using he
        norm_num at this
        exact this
      rw [e4, powf_fin (by linarith), div_fin hy.ne', fin_inj] at hz
      subst hz
      rw [le_div_iff₀ hy, one_mul]
      exact hy1.trans (Real.one_le_rpow he' (by norm_num))
  · intro hz
    rw [e4] at hz
    cases e with
    | nan =>
      have : Fl.powf nan (fin 0.25) = nan := by
        change powX nan (fin 0.25) = nan
        unfold powX
        rw [if_neg (by simp; norm_num)]
      rw [this] at hz
      change nan = _ at hz
      simp at hz
    | ninf => exact absurd he (by change ¬ ltX ninf (fin _) = false; simp [ltX])
    | pinf =>
      have : Fl.powf pinf (fin 0.25) = pinf := by
        change powX pinf (fin 0.25) = pinf
        unfold powX
        rw [if_neg (by simp; norm_num)]
        simp
        norm_num
      rw [this] at hz
      change (if y < 0 then ninf else pinf) = _ at hz
      rw [if_neg (not_lt.2 hy.le)] at hz
      simp at hz
    | fin e =>
      have he' : 1 ≤ e := by
        rw [show (1.0 : X) = fin 1.0 from rfl, lt_fin] at he
        have : ¬ e < 1.0 := by simpa using he
        norm_num at this
        exact this
      rw [powf_fin (by linarith), div_fin hy.ne'] at hz
      simp at hz

theorem Clk.quotPred (H : Clk C fwd s t h) {q : ℝ} (hq : C.fr ≤ q) (hq' : q ≤ max C.fr C.fl) :
    ∃ q', stepQuotPred s (fin q) = fin q' ∧ q ≤ q' ∧ q' ≤ max C.fr C.fl := by
  unfold stepQuotPred
  split
  · simp only [H.ctl.facr, H.ctl.facl]
    obtain ⟨r, e, -, h2⟩ := clamp_val (fl := C.fl) (fr := C.fr)
      (s.cache.dtacc / s.dt * Fl.powf (Fl.powi s.cache.err 2 / s.cache.erracc) 0.25 / s.opts.safe)
    rw [e, max_fin]
    exact ⟨_, rfl, le_max_left _ _, max_le hq' h2⟩
  · exact ⟨q, rfl, le_rfl, hq'⟩

/-- `min(|x|, dtmax)`. -/
theorem Ctl.cap {o : Opts X} (H : Ctl C o) (x : ℝ) : ∃ y, Fl.min (Fl.abs (fin x)) o.dtmax = fin y ∧ 0 ≤ y ∧
    y ≤ |x| ∧ (∀ m ∈ C.mx, y ≤ m) ∧ (y = |x| ∨ ∃ m ∈ C.mx, y = m) ∧ (x ≠ 0 → 0 < y) := by
  rw [H.dtmax, abs_fin]
  have hm := H.dtmax_pos
  cases hmx : C.mx with
  | none => exact ⟨|x|, rfl, abs_nonneg _, le_rfl, by simp, .inl rfl, abs_pos.2⟩
  | some m =>
    have hm := hm m (by rw [hmx]; rfl)
    simp only [min_fin]
    refine ⟨_, rfl, le_min (abs_nonneg _) hm.le, min_le_left _ _, ?_, ?_,
      fun hx => lt_min (abs_pos.2 hx) hm⟩
    · intro m' h'
      obtain rfl : m = m' := by simpa using h'
      exact min_le_right _ _
    · obtain e | e := min_choice |x| m
      · exact .inl e
      · exact .inr ⟨m, rfl, e⟩

/-- Replacing the step by a smaller one. -/
theorem Clk.shrink (H : Clk C fwd s t h) {s' : St X n P} (ho : s'.opts = s.opts) (hd : s'.tdir = s.tdir)
    (hf : s'.tfinal = s.tfinal) (ht : s'.t = s.t) (h1 : s'.cache.dtopt = s.cache.dtopt)
    (h2 : s'.cache.cfac = s.cache.cfac) (hl : s'.cache.last = false) {h' : ℝ} (e : s'.dt = fin h')
    (hp : fwd → 0 ≤ h → 0 ≤ h' ∧ h' ≤ h) : Clk C fwd s' t h' where
  ctl := ho ▸ H.ctl
  tdir := hd ▸ H.tdir
  tfinal := hf ▸ H.tfinal
  time := ht ▸ H.time
  step := e
  dtopt := h1 ▸ H.dtopt
  cfac := h2 ▸ H.cfac
  last := by rw [hl]; simp
  sane := H.sane
  pos hf := (hp hf (H.pos hf)).1
  room hf := by have := (hp hf (H.pos hf)).2; have := H.room hf; linarith
  dir := H.dir

theorem Clk.halve (H : Clk C fwd s t h) : Clk C fwd (halveStep s) t (h * 0.5) := by
  have e : (halveStep s).dt = s.dt * 0.5 ∧ (halveStep s).cache.dtopt = s.cache.dtopt ∧
      (halveStep s).cache.cfac = s.cache.cfac := by
    simp only [halveStep]; split <;> exact ⟨rfl, rfl, rfl⟩
  refine H.shrink (Frame.halveStep s).opts (Frame.halveStep s).tdir (Frame.halveStep s).tfinal
    (Frame.halveStep s).t e.2.1 e.2.2 (halveStep_flags s).2 (by rw [e.1, H.step]; rfl) ?_
  intro _ h0
  constructor
  · positivity
  · norm_num; linarith

theorem Clk.slowBy (H : Clk C fwd s t h) {d : X} (hn : s.cache.newt < s.opts.max_newt_iter)
    (hd : Fl.ge d 1.0 = true) : ∃ y, 0 < y ∧ y ≤ 1 ∧ Clk C fwd (slowStep s d) t (h * y) := by
  obtain ⟨q, hq, hq1⟩ : ∃ q, Fl.max 1e-4 (Fl.min 20.0 d) = fin q ∧ 1 ≤ q := by
    apply clamp_ge (fl := 20.0) (fr := 1e-4) (by norm_num)
    · rintro y rfl
      rw [show (1.0 : X) = fin 1.0 from rfl, ge_fin] at hd
      have : (1.0 : ℝ) ≤ y := by simpa using hd
      norm_num at this
      exact this
    · rintro rfl
      rw [show Fl.ge ninf (1.0 : X) = false from rfl] at hd
      simp at hd
  have hk : 0 < 4 + s.opts.max_newt_iter - 1 - s.cache.newt := by omega
  obtain ⟨k, ek⟩ : ∃ k, k = 4 + s.opts.max_newt_iter - 1 - s.cache.newt := ⟨_, rfl⟩
  rw [← ek] at hk
  have hk' : (k : ℝ) ≠ 0 := by positivity
  set y : ℝ := 0.8 * q ^ (-1.0 / (k : ℝ)) with hy
  have hy0 : 0 < y := by rw [hy]; have : 0 < q := by linarith
                         positivity
  have hy1 : y ≤ 1 := by
    have : q ^ (-1.0 / (k : ℝ)) ≤ 1 := Real.rpow_le_one_of_one_le_of_nonpos hq1 (by
      apply div_nonpos_of_nonpos_of_nonneg <;> norm_num)
    rw [hy]; norm_num; linarith
  have e : (slowStep s d).dt = fin (h * y) ∧ (slowStep s d).cache.dtopt = s.cache.dtopt ∧
      (slowStep s d).cache.cfac = s.cache.cfac := by
    have e1 : (0.8 : X) * Fl.powf (Fl.max 1e-4 (Fl.min 20.0 d))
        (-1.0 / Fl.ofNat (4 + s.opts.max_newt_iter - 1 - s.cache.newt)) = fin y := by
      rw [hq, ← ek, ofNat_fin, show (-1.0 : X) = fin (-1.0) from rfl, div_fin hk',
        powf_fin (by linarith)]
      rfl
    simp only [slowStep]
    rw [e1]
    split <;> exact ⟨by change s.dt * fin y = _; rw [H.step]; rfl, rfl, rfl⟩
  have key : 0 ≤ h → 0 ≤ h * y ∧ h * y ≤ h := fun h0 => ⟨by positivity, by nlinarith⟩
  exact ⟨y, hy0, hy1, H.shrink (Frame.slowStep s d).opts (Frame.slowStep s d).tdir (Frame.slowStep s d).tfinal
    (Frame.slowStep s d).t e.2.1 e.2.2 (slowStep_flags s d).2 e.1 fun _ => key⟩

theorem Clk.slow' (H : Clk C fwd s t h) {d : X} (hn : s.cache.newt < s.opts.max_newt_iter)
    (hd : Fl.ge d 1.0 = true) : ∃ h', Clk C fwd (slowStep s d) t h' ∧ (fwd → h' ≤ h) := by
  obtain ⟨y, y0, y1, h1⟩ := H.slowBy hn hd
  exact ⟨_, h1, fun hf => mul_le_of_le_one_right (H.pos hf) y1⟩

theorem Clk.slow (H : Clk C fwd s t h) {d : X} (hn : s.cache.newt < s.opts.max_newt_iter)
    (hd : Fl.ge d 1.0 = true) : ∃ h', Clk C fwd (slowStep s d) t h' :=
  (H.slow' hn hd).imp fun _ h => h.1

theorem Clk.rejectBy (H : Clk C fwd s t h) (he : Fl.lt s.cache.err 1.0 = false) :
    ∃ y, 0 < y ∧ (C.Sane → y ≤ 1) ∧ Clk C fwd (rejectStep s (stepQuot s)) t (h * y) := by
  obtain ⟨q, hq, hfr, -⟩ := H.quot
  have hq0 : 0 < q := H.ctl.facr_pos.trans_le hfr
  have f := Frame.rejectStep s (stepQuot s)
  have r := rejectStep_fields s (stepQuot s)
  have e : (rejectStep s (stepQuot s)).cache.dtopt = s.cache.dtopt ∧
      (rejectStep s (stepQuot s)).cache.cfac = s.cache.cfac := by
    simp only [rejectStep]
    split <;> split <;> exact ⟨rfl, rfl⟩
  have hdt := r.2.2.2.2.2.2.2.2.2
  rw [H.step, hq] at hdt
  split at hdt
  · have key : 0 ≤ h → 0 ≤ h * 0.1 ∧ h * 0.1 ≤ h := fun h0 => ⟨by positivity, by norm_num; linarith⟩
    exact ⟨0.1, by norm_num, fun _ => by norm_num,
      H.shrink f.opts f.tdir f.tfinal f.t e.1 e.2 r.2.2.2.1 (by rw [hq, hdt]; rfl) fun _ => key⟩
  · have one : C.Sane → 1 ≤ q := by
      intro hS
      obtain ⟨q', e', h1⟩ := H.quot_reject hS he
      rw [hq, fin_inj] at e'
      subst e'
      exact h1
    have key : fwd → 0 ≤ h → 0 ≤ h * q⁻¹ ∧ h * q⁻¹ ≤ h := fun hf h0 =>
      ⟨by positivity, by rw [← div_eq_mul_inv]; exact div_le_self h0 (one (H.sane hf))⟩
    exact ⟨q⁻¹, inv_pos.2 hq0, fun hS => inv_le_one_of_one_le₀ (one hS), H.shrink f.opts f.tdir f.tfinal f.t e.1 e.2 r.2.2.2.1
      (by rw [hq, hdt, div_fin hq0.ne', div_eq_mul_inv]) key⟩

theorem Clk.reject' (H : Clk C fwd s t h) (he : Fl.lt s.cache.err 1.0 = false) :
    ∃ h', Clk C fwd (rejectStep s (stepQuot s)) t h' ∧ (fwd → h' ≤ h) := by
  obtain ⟨y, -, y1, h1⟩ := H.rejectBy he
  exact ⟨_, h1, fun hf => mul_le_of_le_one_right (H.pos hf) (y1 (H.sane hf))⟩

theorem Clk.reject (H : Clk C fwd s t h) (he : Fl.lt s.cache.err 1.0 = false) :
    ∃ h', Clk C fwd (rejectStep s (stepQuot s)) t h' :=
  (H.reject' he).imp fun _ h => h.1

/-- Everything up to the decision keeps the time and does not enlarge the step. -/
theorem Clk.closed : Closed (fun s : St X n P => ∃ h, Clk C fwd s t h) where
  facs := fun ⟨h, H⟩ => ⟨h, ⟨H.1, H.2, H.3, H.4, H.5, H.6, H.7, H.8, H.9, H.10, H.11, H.12⟩⟩
  real := fun ⟨h, H⟩ e => by
    obtain ⟨r, -, rfl⟩ := decomp_real_ok e
    exact ⟨h, ⟨H.1, H.2, H.3, H.4, H.5, H.6, H.7, H.8, H.9, H.10, H.11, H.12⟩⟩
  cplx := fun ⟨h, H⟩ e => by
    obtain ⟨r, -, rfl⟩ := decomp_complex_ok e
    exact ⟨h, ⟨H.1, H.2, H.3, H.4, H.5, H.6, H.7, H.8, H.9, H.10, H.11, H.12⟩⟩
  count := fun ⟨h, H⟩ => ⟨h, ⟨H.1, H.2, H.3, H.4, H.5, H.6, H.7, H.8, H.9, H.10, H.11, H.12⟩⟩
  fail := fun {s} ⟨h, H⟩ => by
    simp only [decFail]
    split
    · exact ⟨h, ⟨H.1, H.2, H.3, H.4, H.5, H.6, H.7, H.8, H.9, H.10, H.11, H.12⟩⟩
    · exact ⟨_, Clk.halve ⟨H.1, H.2, H.3, H.4, H.5, H.6, H.7, H.8, H.9, H.10, H.11, H.12⟩⟩
  init := fun {s} ⟨h, H⟩ => by
    simp only [newtonInit, prepare_newton]
    split <;> exact ⟨h, ⟨H.1, H.2, H.3, H.4, H.5, H.6, H.7, H.8, H.9, H.10, H.11, H.12⟩⟩
  rhs := fun ⟨h, H⟩ => ⟨h, ⟨H.1, H.2, H.3, H.4, H.5, H.6, H.7, H.8, H.9, H.10, H.11, H.12⟩⟩
  solve := fun ⟨h, H⟩ _ => ⟨h, ⟨H.1, H.2, H.3, H.4, H.5, H.6, H.7, H.8, H.9, H.10, H.11, H.12⟩⟩
  theta := fun _ _ _ ⟨h, H⟩ => ⟨h, ⟨H.1, H.2, H.3, H.4, H.5, H.6, H.7, H.8, H.9, H.10, H.11, H.12⟩⟩
  slow := fun d ⟨h, H⟩ hn hd => H.slow hn hd
  halve := fun ⟨h, H⟩ => ⟨_, H.halve⟩
  upd := fun ⟨h, H⟩ => ⟨h, ⟨H.1, H.2, H.3, H.4, H.5, H.6, H.7, H.8, H.9, H.10, H.11, H.12⟩⟩
  err1 := fun ⟨h, H⟩ => ⟨h, ⟨H.1, H.2, H.3, H.4, H.5, H.6, H.7, H.8, H.9, H.10, H.11, H.12⟩⟩
  err2 := fun ⟨h, H⟩ => ⟨h, ⟨H.1, H.2, H.3, H.4, H.5, H.6, H.7, H.8, H.9, H.10, H.11, H.12⟩⟩
  decomp := fun ⟨h, H⟩ => ⟨h, ⟨H.1, H.2, H.3, H.4, H.5, H.6, H.7, H.8, H.9, H.10, H.11, H.12⟩⟩

/-- The step stays below its first value. -/
theorem Clk.closedCap {H0 : ℝ} : Closed (fun s : St X n P => ∃ h, Clk C fwd s t h ∧ (fwd → h ≤ H0)) where
  facs := fun ⟨h, H, B⟩ => ⟨h, ⟨H.1, H.2, H.3, H.4, H.5, H.6, H.7, H.8, H.9, H.10, H.11, H.12⟩, B⟩
  real := fun ⟨h, H, B⟩ e => by
    obtain ⟨r, -, rfl⟩ := decomp_real_ok e
    exact ⟨h, ⟨H.1, H.2, H.3, H.4, H.5, H.6, H.7, H.8, H.9, H.10, H.11, H.12⟩, B⟩
  cplx := fun ⟨h, H, B⟩ e => by
    obtain ⟨r, -, rfl⟩ := decomp_complex_ok e
    exact ⟨h, ⟨H.1, H.2, H.3, H.4, H.5, H.6, H.7, H.8, H.9, H.10, H.11, H.12⟩, B⟩
  count := fun ⟨h, H, B⟩ => ⟨h, ⟨H.1, H.2, H.3, H.4, H.5, H.6, H.7, H.8, H.9, H.10, H.11, H.12⟩, B⟩
  fail := fun {s} ⟨h, H, B⟩ => by
    simp only [decFail]
    split
    · exact ⟨h, ⟨H.1, H.2, H.3, H.4, H.5, H.6, H.7, H.8, H.9, H.10, H.11, H.12⟩, B⟩
    · exact ⟨_, Clk.halve ⟨H.1, H.2, H.3, H.4, H.5, H.6, H.7, H.8, H.9, H.10, H.11, H.12⟩, fun hf => by have := B hf; have := H.pos hf; norm_num; linarith⟩
  init := fun {s} ⟨h, H, B⟩ => by
    simp only [newtonInit, prepare_newton]
    split <;> exact ⟨h, ⟨H.1, H.2, H.3, H.4, H.5, H.6, H.7, H.8, H.9, H.10, H.11, H.12⟩, B⟩
  rhs := fun ⟨h, H, B⟩ => ⟨h, ⟨H.1, H.2, H.3, H.4, H.5, H.6, H.7, H.8, H.9, H.10, H.11, H.12⟩, B⟩
  solve := fun ⟨h, H, B⟩ _ => ⟨h, ⟨H.1, H.2, H.3, H.4, H.5, H.6, H.7, H.8, H.9, H.10, H.11, H.12⟩, B⟩
  theta := fun _ _ _ ⟨h, H, B⟩ => ⟨h, ⟨H.1, H.2, H.3, H.4, H.5, H.6, H.7, H.8, H.9, H.10, H.11, H.12⟩, B⟩
  slow := fun d ⟨h, H, B⟩ hn hd => let ⟨h', a, c⟩ := H.slow' hn hd; ⟨h', a, fun hf => (c hf).trans (B hf)⟩
  halve := fun ⟨h, H, B⟩ => ⟨_, H.halve, fun hf => by have := B hf; have := H.pos hf; norm_num; linarith⟩
  upd := fun ⟨h, H, B⟩ => ⟨h, ⟨H.1, H.2, H.3, H.4, H.5, H.6, H.7, H.8, H.9, H.10, H.11, H.12⟩, B⟩
  err1 := fun ⟨h, H, B⟩ => ⟨h, ⟨H.1, H.2, H.3, H.4, H.5, H.6, H.7, H.8, H.9, H.10, H.11, H.12⟩, B⟩
  err2 := fun ⟨h, H, B⟩ => ⟨h, ⟨H.1, H.2, H.3, H.4, H.5, H.6, H.7, H.8, H.9, H.10, H.11, H.12⟩, B⟩
  decomp := fun ⟨h, H, B⟩ => ⟨h, ⟨H.1, H.2, H.3, H.4, H.5, H.6, H.7, H.8, H.9, H.10, H.11, H.12⟩, B⟩

/-- The state between two calls of `step`. -/
structure Idle (C : Clock) (fwd : Prop) (s : St X n P) (t h : ℝ) : Prop where
  ctl : Ctl C s.opts
  tdir : s.tdir = fin C.d
  tfinal : s.tfinal = fin C.tf
  time : s.t = fin t
  step : s.dt = fin h
  dtopt : ∃ x, s.cache.dtopt = fin x ∧ (fwd → 0 ≤ x)
  cfac : ∃ x, s.cache.cfac = fin x ∧ 0 < x
  last : s.cache.last = true → s.sol.retcode = .Continue → h = C.tf - t
  sane : fwd → C.Sane
  pos : fwd → 0 ≤ h
  le : fwd → t ≤ C.tf
  dir : fwd → C.d = 1

theorem Clk.tick (H : ∃ h, Clk C fwd s t h) : ∃ h, Clk C fwd (tick s) t h := by
  obtain ⟨h, H⟩ := H
  exact ⟨h, ⟨H.1, H.2, H.3, H.4, H.5, H.6, H.7, H.8, H.9, H.10, H.11, H.12⟩⟩

theorem Idle.clamp (H : Idle C fwd s t h) (hc : s.sol.retcode = .Continue) : ∃ h', Clk C fwd (clampLast s) t h' := by
  unfold clampLast
  simp only [H.time, H.step, H.tfinal, H.tdir]
  rw [show (1.0001 : X) = fin 1.0001 from rfl, show (0.0 : X) = fin 0.0 from rfl, mul_fin, mul_fin, add_fin, sub_fin,
    ge_fin]
  split
  · refine ⟨C.tf - t, ⟨H.ctl, rfl, rfl, rfl, sub_fin _ _, H.dtopt, H.cfac, fun _ => rfl, H.sane,
      fun hf => by have := H.le hf; linarith, fun hf => by linarith, H.dir⟩⟩
  · rename_i hn
    refine ⟨h, ⟨H.ctl, H.tdir, H.tfinal, H.time, H.step, H.dtopt, H.cfac, fun hl => H.last hl hc, H.sane,
      H.pos, fun hf => ?_, H.dir⟩⟩
    rw [H.dir hf] at hn
    have := H.pos hf
    simp only [decide_eq_true_eq] at hn
    norm_num at hn
    linarith

theorem Ctl.cap_eq {o : Opts X} (H : Ctl C o) (x : ℝ) : Fl.min (Fl.abs (fin x)) o.dtmax = fin (capR C.mx x) := by
  rw [H.dtmax, abs_fin]
  unfold capR
  cases C.mx with
  | none => rfl
  | some m => simp

theorem Ctl.cap_nonneg {o : Opts X} (H : Ctl C o) (x : ℝ) : 0 ≤ capR C.mx x := by
  obtain ⟨y, e, h, -⟩ := H.cap x
  rw [H.cap_eq, fin_inj] at e
  rwa [e]

theorem Clock.d_cases (C : Clock) : C.d = 1 ∨ C.d = -1 := by
  unfold Clock.d; split <;> simp

theorem Ctl.proposal_pos {o : Opts X} (H : Ctl C o) (hd : C.d = 1) (rej : Bool) (h q : ℝ) :
    0 ≤ C.proposal rej h q := by
  unfold Clock.proposal
  simp only [hd, one_mul]
  split
  · positivity
  · exact H.cap_nonneg _

/-- The next step after an accepted step which is not the last one. -/
theorem nextStep_val (hctl : Ctl C s.opts) (hd : s.tdir = fin C.d) (hf : s.tfinal = fin C.tf)
    (ht : s.t = fin t) (hh : s.dt = fin h) (h0 : h ≠ 0) (y : ℝ) :
    ∃ h', (nextStep s (fin y)).dt = fin h' ∧
      C.Next t h (if s.cache.reject then C.d * min |C.d * capR C.mx y| |h| else C.d * capR C.mx y) h' ∧
      ((nextStep s (fin y)).cache.last = true → s.cache.last = true ∨ h' = C.tf - t) ∧
      (nextStep s (fin y)).cache.dtopt = fin (min h (C.d * capR C.mx y)) ∧
      (nextStep s (fin y)).cache.cfac = s.cache.cfac := by
  have e1 : ∀ s : St X n P, (finishNext s).cache.dtopt = s.cache.dtopt ∧
      (finishNext s).cache.cfac = s.cache.cfac := by
    intro s; simp only [finishNext]; split <;> exact ⟨rfl, rfl⟩
  have ec : capStep s (fin y) =
      fin (if s.cache.reject then C.d * min |C.d * capR C.mx y| |h| else C.d * capR C.mx y) := by
    unfold capStep
    rw [hctl.cap_eq, hd, mul_fin, hh]
    split <;> simp
  simp only [nextStep]
  rw [ec, hctl.cap_eq, hctl.quot1, hctl.quot2]
  generalize (if s.cache.reject then C.d * min |C.d * capR C.mx y| |h| else C.d * capR C.mx y) = x
  simp only [hd, hf, ht, hh]
  rw [div_fin hctl.quot1_pos.ne', div_fin h0, add_fin, sub_fin, mul_fin, mul_fin, min_fin,
    show (0.0 : X) = fin 0.0 from rfl, ge_fin]
  split
  · rename_i hc
    refine ⟨C.tf - t, ?_, .toEnd (by norm_num at hc; exact hc), fun _ => .inr rfl, (e1 _).1, (e1 _).2⟩
    rw [(finishNext_fields _).2.2.2.2.2.2.2.2.2.2.2.2.2.2.2.2.2.2.1, sub_fin]
  · rename_i hc
    have hc' : (t + x / C.q1 - C.tf) * C.d < 0 := by norm_num at hc; exact hc
    split
    · rename_i hk
      simp only [ge_fin, Bool.and_eq_true, decide_eq_true_eq] at hk
      exact ⟨h, rfl, .keep hc' hk.1.2 hk.2, fun hl => .inl hl, rfl, rfl⟩
    · refine ⟨x, ?_, .change hc', fun hl => .inl ?_, (e1 _).1, (e1 _).2⟩
      · rw [(finishNext_fields _).2.2.2.2.2.2.2.2.2.2.2.2.2.2.2.2.2.2.1]
      · rw [(finishNext_fields _).2.2.2.2.2.2.2.2.2.2.2.2.2.2.2.2.2.1] at hl
        exact hl

theorem Clk.step_ne (H : Clk C fwd s t h) (hs : tooSmall s = false) : h ≠ 0 := by
  rintro rfl
  unfold tooSmall at hs
  rw [H.step, H.time, show (0.1 : X) = fin 0.1 from rfl, abs_fin, abs_fin, eps_fin, mul_fin, mul_fin, le_fin] at hs
  simp at hs
  have : (0 : ℝ) ≤ |t| * Fl.eps := mul_nonneg (abs_nonneg _) RealFl.eps_pos.le
  linarith

theorem Clk.countAccept (H : Clk C fwd s t h) : Clk C fwd (countAccept s) t h :=
  ⟨H.1, H.2, H.3, H.4, H.5, H.6, H.7, H.8, H.9, H.10, H.11, H.12⟩

/-- An accepted step. -/
theorem Clk.accept (H : Clk C fwd s t h) (hs : tooSmall s = false) :
    ∃ h', Idle C fwd (acceptStep s (stepQuot s)) (t + h) h' ∧ h ≠ 0 ∧
      (s.cache.last = true → t + h = C.tf) ∧
      (s.cache.last = false → ∃ q, C.fr ≤ q ∧ q ≤ max C.fr C.fl ∧
        C.Next (t + h) h (C.proposal s.cache.reject h q) h') := by
  have h0 := H.step_ne hs
  obtain ⟨q, e1, hq, hq'⟩ := H.quot
  obtain ⟨r, e2, hr, hr'⟩ := H.countAccept.quotPred hq hq'
  have hr0 : 0 < r := by have := H.ctl.facr_pos; linarith
  have a := acceptStep_fields s (stepQuot s)
  have b := acceptState_fields (Radau.countAccept s)
  have ec : (acceptState (Radau.countAccept s)).cache.cfac = s.cache.cfac := by
    simp only [acceptState]; split <;> rfl
  simp only at a b
  obtain ⟨-, -, -, -, -, a6, -, -, -, a10, a11, a12, -, -, a15, -⟩ := a
  obtain ⟨-, -, -, -, -, b6, -, -, -, b10, b11, b12, -, -, -, -, b17, b18, b19, -, -, b22, -⟩ := b
  cases hl : s.cache.last with
  | true =>
    have e : (acceptStep s (stepQuot s)).dt = s.cache.dtopt ∧
        (acceptStep s (stepQuot s)).cache.dtopt = s.cache.dtopt ∧
        (acceptStep s (stepQuot s)).cache.cfac = s.cache.cfac := by
      simp only [acceptStep]
      rw [if_pos (by rw [b17]; exact hl)]
      exact ⟨b22, b22, ec⟩
    obtain ⟨x, ex, hx⟩ := H.dtopt
    have hend : t + h = C.tf := by rw [H.last hl]; ring
    refine ⟨x, ⟨a12 ▸ H.ctl, a10 ▸ H.tdir, a11 ▸ H.tfinal, by rw [a6, H.time, H.step, add_fin],
      e.1 ▸ ex, ⟨x, e.2.1 ▸ ex, hx⟩, e.2.2 ▸ H.cfac, ?_, H.sane, hx, fun _ => hend.le, H.dir⟩, h0,
      fun _ => hend, by simp⟩
    rw [a15, hl]
    simp
  | false =>
    set m := newDeriv (acceptState (Radau.countAccept s)) with hm
    have e : acceptStep s (stepQuot s) = nextStep m (fin (h / r)) := by
      simp only [acceptStep]
      rw [if_neg (by rw [b17]; simp [Radau.countAccept, hl]), e1, e2]
      have : (Radau.countAccept s).dt = fin h := H.step
      rw [this, div_fin hr0.ne']
    obtain ⟨h', n1, n2, n3, n4, n5⟩ := nextStep_val (C := C) (s := m) (t := t + h) (h := h)
      (by rw [hm]; simp only [newDeriv]; rw [b12]; exact H.ctl)
      (by rw [hm]; simp only [newDeriv]; rw [b10]; exact H.tdir)
      (by rw [hm]; simp only [newDeriv]; rw [b11]; exact H.tfinal)
      (by rw [hm]; simp only [newDeriv]; rw [b6]; change s.t + s.dt = _; rw [H.time, H.step, add_fin])
      (by rw [hm]; simp only [newDeriv]; rw [b19]; exact H.step) h0 (h / r)
    have er : m.cache.reject = s.cache.reject := by rw [hm]; simp only [newDeriv]; rw [b18]; rfl
    have el : m.cache.last = false := by rw [hm]; simp only [newDeriv]; rw [b17]; exact hl
    have ecf : m.cache.cfac = s.cache.cfac := ec
    rw [er] at n2
    rw [← e] at n1 n3 n4 n5
    have hroom : fwd → t + h ≤ C.tf := H.room
    have hpr : fwd → 0 ≤ C.proposal s.cache.reject h r := fun hf => H.ctl.proposal_pos (H.dir hf) _ _ _
    refine ⟨h', ⟨a12 ▸ H.ctl, a10 ▸ H.tdir, a11 ▸ H.tfinal, by rw [a6, H.time, H.step, add_fin], n1,
      ⟨_, n4, fun hf => ?_⟩, by rw [n5, ecf]; exact H.cfac, ?_, H.sane, fun hf => ?_, hroom, H.dir⟩, h0,
      by simp, fun _ => ⟨r, hq.trans hr, hr', n2⟩⟩
    · rw [H.dir hf, one_mul]
      exact le_min (H.pos hf) (H.ctl.cap_nonneg _)
    · intro h1 _
      obtain h2 | h2 := n3 h1
      · rw [el] at h2; simp at h2
      · exact h2
    · have h3 := hpr hf
      unfold Clock.proposal at h3
      cases n2 with
      | toEnd => have := hroom hf; linarith
      | keep => exact H.pos hf
      | change => exact h3

/-- A call of `step` during a run: either a step from `t` to `t + h` is accepted … -/
structure TookStep (C : Clock) (fwd : Prop) (s s' : St X n P) (t h h' : ℝ) : Prop where
  idle : Idle C fwd s' (t + h) h'
  ne : h ≠ 0
  pos : fwd → 0 < h ∧ t + h ≤ C.tf
  dtprev : s'.dtprev = fin h
  code : s'.sol.retcode = .Continue ∨ (s'.sol.retcode = .Success ∧ t + h = C.tf)
  next : s'.sol.retcode = .Continue → ∃ q rej, C.fr ≤ q ∧ q ≤ max C.fr C.fl ∧
    (s.stats.steps + 1 < s'.stats.steps → rej = true) ∧ C.Next (t + h) h (C.proposal rej h q) h'

theorem Idle.run_step (H : Idle C fwd s t h) (hr : Ready s) {fuel : ℕ} {s' : St X n P}
    (hs : Radau.step fuel s = .ok s') :
    (∃ h1 h', TookStep C fwd s s' t h1 h') ∨ (s'.sol.retcode ≠ .Continue ∧ s'.sol.retcode ≠ .Success) := by
  obtain ⟨k, s1, ha, sp, -, ⟨d, ⟨h1, Hd⟩, hsm, hd⟩ | hf⟩ := step_specI Clk.closed Clk.tick
    (fun ⟨_, H⟩ he => H.reject he) hr.reject (H.clamp hr.retcode) hs
  · left
    have hcode : d.sol.retcode = .Continue := by
      rw [hd.retcode, sp.retcode, (clampLast_fields s).2.1, hr.retcode]
    obtain ⟨h', hi, h0, hl, hn⟩ := Hd.accept hsm
    have a := acceptStep_fields d (stepQuot d)
    simp only at a
    obtain ⟨-, -, -, -, -, -, -, -, a9, -, -, -, -, -, a15, -, a17, -⟩ := a
    rw [← hd.eq] at a9 a15 a17 hi
    refine ⟨h1, h', hi, h0, fun hf => ⟨lt_of_le_of_ne (Hd.pos hf) (Ne.symm h0), Hd.room hf⟩, by rw [a9, Hd.step],
      ?_, ?_⟩
    · rw [a15, hcode]
      cases h2 : d.cache.last with
      | true => exact .inr ⟨rfl, hl h2⟩
      | false => exact .inl rfl
    · intro hc
      rw [a15] at hc
      cases h2 : d.cache.last with
      | true => rw [h2] at hc; simp at hc
      | false =>
        obtain ⟨q, q1, q2, q3⟩ := hn h2
        refine ⟨q, _, q1, q2, fun hst => ?_, q3⟩
        apply hd.mono
        rw [sp.reject]
        rw [a17, hd.steps, sp.steps, (clampLast_fields s).2.2.1] at hst
        rw [if_neg (show k ≠ 0 by omega)]
  · right
    have h1 := hf.retcode
    have h2 := hf.code
    rw [sp.retcode, (clampLast_fields s).2.1, hr.retcode] at h2
    refine ⟨h1, ?_⟩
    obtain h2 | h2 | h2 | h2 := h2 <;> simp [h2]

/-- The step taken is at most a little larger than the proposed one. -/
theorem Idle.run_cap (H : Idle C fwd s t h) (hr : Ready s) (hf : fwd) {fuel : ℕ} {s' : St X n P}
    (hs : Radau.step fuel s = .ok s') (ha : s'.sol.retcode = .Continue ∨ s'.sol.retcode = .Success) :
    ∃ h1, s'.dtprev = fin h1 ∧ h1 ≤ 1.0001 * h := by
  obtain ⟨h2, Hc⟩ := H.clamp hr.retcode
  have hcap : h2 ≤ 1.0001 * h := by
    have := Hc.step
    unfold clampLast at this
    simp only [H.time, H.step, H.tfinal, H.tdir] at this
    rw [show (1.0001 : X) = fin 1.0001 from rfl, show (0.0 : X) = fin 0.0 from rfl, mul_fin, mul_fin, add_fin, sub_fin,
      ge_fin] at this
    have hp := H.pos hf
    split at this
    · rename_i hc
      rw [sub_fin, fin_inj] at this
      rw [H.dir hf] at hc
      simp only [decide_eq_true_eq] at hc
      norm_num at hc ⊢
      linarith
    · have : fin h = fin h2 := H.step.symm.trans this
      rw [fin_inj] at this
      rw [← this]
      norm_num
      linarith
  obtain ⟨k, s1, ha', sp, -, ⟨d, ⟨h1, Hd, B⟩, hsm, hd⟩ | hfl⟩ := step_specI
    (I := fun s => ∃ h1, Clk C fwd s t h1 ∧ (fwd → h1 ≤ 1.0001 * h)) Clk.closedCap
    (fun ⟨h, H, B⟩ => ⟨h, ⟨H.1, H.2, H.3, H.4, H.5, H.6, H.7, H.8, H.9, H.10, H.11, H.12⟩, B⟩)
    (fun ⟨_, H, B⟩ he => let ⟨h', a, c⟩ := H.reject' he; ⟨h', a, fun hf => (c hf).trans (B hf)⟩) hr.reject
    ⟨h2, Hc, fun _ => hcap⟩ hs
  · have a := acceptStep_fields d (stepQuot d)
    simp only at a
    have a9 := a.2.2.2.2.2.2.2.2.1
    rw [← hd.eq] at a9
    exact ⟨h1, by rw [a9, Hd.step], B hf⟩
  · have h1 := hfl.retcode
    have h2 := hfl.code
    rw [sp.retcode, (clampLast_fields s).2.1, hr.retcode] at h2
    exfalso
    rcases ha with ha | ha
    · exact h1 ha
    · obtain h2 | h2 | h2 | h2 := h2 <;> rw [ha] at h2 <;> simp at h2

end
end
end Radau
end Cyphus
