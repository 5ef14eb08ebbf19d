import Verif.Props.DP5Rounding
/-!
# C64: forward `Radau5` runs with rounding

Level F: any floating-point arithmetic satisfying `FloatLaws`, for instance IEEE-754 doubles.
-/

namespace Cyphus
open X
set_option linter.unusedSectionVars false
set_option autoImplicit false
variable {F : Type} {n : Nat} {P : Type}
  [Add F] [Sub F] [Mul F] [Div F] [Neg F] [OfScientific F] [Fl F] [FlInf F] {val : F → X} {rnd : ℝ → X}

/-- Controller options within their documented ranges (the comparisons are the ones of the arithmetic `F`). The last
condition says that the safety factor, reduced for a large number of Newton passes, does not underflow. The default
options satisfy this in double precision. -/
structure Radau.FloatSane (o : Opts F) : Prop where
  safe_pos : Fl.lt 0.0 o.safe = true
  safe_le : Fl.le o.safe 1.0 = true
  facl : Fl.le 1.0 o.facl = true
  facr : Fl.lt 0.0 o.facr = true
  dtmax : Fl.le 0.0 o.dtmax = true
  fac : ∀ k ≤ o.max_newt_iter, Fl.lt 0.0
    (o.safe * Fl.ofNat (1 + 2 * o.max_newt_iter) / Fl.ofNat (k + 2 * o.max_newt_iter)) = true

namespace Radau

/-- The state of a forward run: `t` and `tf` are the values of the current and the final time. -/
structure FloatInv (val : F → X) (o : Opts F) (t0 tf t : ℝ) (s : St F n P) : Prop where
  time : val s.t = fin t
  tfinal : val s.tfinal = fin tf
  ge : t0 ≤ t
  le : t ≤ tf
  tdir : val s.tdir = fin 1
  opts : s.opts = o
  dt : Fl.le (fin 0) (val s.dt) = true
  dtopt : Fl.le (fin 0) (val s.cache.dtopt) = true
  cfac : s.cache.cfac = o.safe * Fl.ofNat (1 + 2 * o.max_newt_iter)
  newt : s.cache.newt ≤ o.max_newt_iter

/-- A call at time `τ` or `τ + a` with `0 ≤ a ≤ H`. -/
def CallAt (val : F → X) (τ : F) (H : ℝ) (c : Call F n) : Prop :=
  c.time = τ ∨ ∃ a k, c.time = τ + a ∧ val a = fin k ∧ 0 ≤ k ∧ k ≤ H

/-- The state during a step that starts at time `τ`: the step is at most `H`, and the calls made since the calls `old`
are in the step. -/
structure FAtt (val : F → X) (o : Opts F) (τ τf : F) (H : ℝ) (old : List (Call F n)) (s : St F n P) : Prop where
  time : s.t = τ
  tfinal : s.tfinal = τf
  tdir : val s.tdir = fin 1
  opts : s.opts = o
  dt : ∃ h, val s.dt = fin h ∧ 0 ≤ h ∧ h ≤ H
  dtopt : Fl.le (fin 0) (val s.cache.dtopt) = true
  cfac : s.cache.cfac = o.safe * Fl.ofNat (1 + 2 * o.max_newt_iter)
  newt : s.cache.newt ≤ o.max_newt_iter
  calls : ∀ c ∈ s.trace, c ∈ old ∨ CallAt val τ H c

variable {o : Opts F} {τ τf : F} {H : ℝ} {old : List (Call F n)} {s s' : St F n P} {t0 tf t : ℝ}

/-! ### The values of the controller -/

theorem FloatSane.safe (L : FloatLaws val rnd) (hS : FloatSane o) : ∃ x, val o.safe = fin x ∧ 0 < x ∧ x ≤ 1 := by
  have h1 := hS.safe_pos
  have h2 := hS.safe_le
  rw [L.lt_zero_iff] at h1
  rw [L.le, L.one] at h2
  obtain ⟨y, e, hy⟩ | e := gt_cases h1
  · rw [e] at h2; exact ⟨y, e, hy, by simpa using h2⟩
  · rw [e] at h2; simp [Fl.le, leX] at h2

theorem le_max_right' {a b : X} {r : ℝ} (h : Fl.le (fin r) b = true) : Fl.le (fin r) (Fl.max a b) = true := by
  obtain ⟨y, rfl, h⟩ | rfl := ge_cases h
  · cases a with
    | fin z => simp_all
    | _ => simp_all [Fl.le, leX, Fl.max, maxX]
  · cases a <;> simp_all [Fl.le, leX, Fl.max, maxX]

theorem quot_pos (L : FloatLaws val rnd) (hS : FloatSane s.opts) : Fl.lt (fin 0) (val (stepQuot s)) = true := by
  have := hS.facr
  rw [L.lt_zero_iff] at this
  simp only [stepQuot]
  rw [L.max]
  exact lt_max_left' this

theorem quotPred_pos (L : FloatLaws val rnd) {q : F} (hq : Fl.lt (fin 0) (val q) = true) :
    Fl.lt (fin 0) (val (stepQuotPred s q)) = true := by
  simp only [stepQuotPred]
  split
  · rw [L.max]; exact lt_max_left' hq
  · exact hq

/-- A rejected attempt does not enlarge the step. -/
theorem quot_reject (L : FloatLaws val rnd) (hS : FloatSane s.opts)
    (hc : s.cache.cfac = s.opts.safe * Fl.ofNat (1 + 2 * s.opts.max_newt_iter))
    (hn : s.cache.newt ≤ s.opts.max_newt_iter) (he : Fl.lt s.cache.err 1.0 = false) :
    Fl.le (fin 1) (val (stepQuot s)) = true := by
  have hf := hS.fac _ hn
  rw [L.lt_zero_iff, ← hc] at hf
  simp only [stepQuot]
  rw [L.max, L.min]
  refine le_max_right' (le_min' ?_ ?_)
  · have := hS.facl
    rwa [L.le, L.one] at this
  · obtain ⟨x, e, x0, x1⟩ := hS.safe L
    obtain ⟨y, ey, y0, y1⟩ : ∃ y, val (Fl.min s.opts.safe
        (s.cache.cfac / Fl.ofNat (s.cache.newt + 2 * s.opts.max_newt_iter))) = fin y ∧ 0 < y ∧ y ≤ 1 := by
      rw [L.min, e]
      obtain ⟨z, ez, hz⟩ | ez := gt_cases hf
      · rw [ez, min_fin]; exact ⟨_, rfl, lt_min x0 hz, (min_le_left _ _).trans x1⟩
      · rw [ez]; exact ⟨x, rfl, x0, x1⟩
    rw [L.div _ _ (by rw [ey]; simpa using y0.ne'), ey]
    have hp : Fl.lt (val (Fl.powf s.cache.err 0.25)) (fin 1) = false := by
      refine L.pow_ge ?_ ?_
      · rwa [L.lt, L.one] at he
      · obtain ⟨c, hc, c0, -⟩ := L.lit_unit (F := F) 25 true 2 (by norm_num) (by norm_num)
        rw [show (0.25 : F) = OfScientific.ofScientific 25 true 2 from rfl, hc]
        simpa using c0
    obtain e1 | h1 := not_lt_cases hp
    · left; rw [e1]; rfl
    · right
      obtain ⟨z, e1, hz⟩ | e1 := ge_cases h1
      · rw [e1, div_fin y0.ne', round_fin]
        exact L.one_le_rnd (by rw [le_div_iff₀ y0]; linarith)
      · rw [e1, pinf_div y0.le, round_pinf]; rfl

/-- The factor applied when convergence is predicted to be too slow. -/
theorem slow_fac (L : FloatLaws val rnd) {d : F} (hd : Fl.ge d 1.0 = true) (k : ℕ) (hk : 0 < k) :
    ∃ c, val ((0.8 : F) * Fl.powf (Fl.max 1e-4 (Fl.min 20.0 d)) (-1.0 / Fl.ofNat k)) = fin c ∧ 0 ≤ c ∧ c ≤ 1 := by
  have e20 : val (20.0 : F) = fin 20 := by
    rw [show (20.0 : F) = OfScientific.ofScientific 200 true 1 from rfl, L.lit,
      show (OfScientific.ofScientific 200 true 1 : ℝ) = ((20 : ℕ) : ℝ) by norm_num, L.rnd_nat 20 (by norm_num)]
    norm_num
  have hd1 : Fl.le (fin 1) (val d) = true := by
    have : Fl.le (1.0 : F) d = true := hd
    rwa [L.le, L.one] at this
  obtain ⟨y, ey, y1, y20⟩ : ∃ y, val (Fl.min 20.0 d) = fin y ∧ 1 ≤ y ∧ y ≤ 20 := by
    rw [L.min, e20]
    obtain ⟨z, ez, hz⟩ | ez := ge_cases hd1
    · rw [ez, min_fin]; exact ⟨_, rfl, le_min (by norm_num) hz, min_le_left _ _⟩
    · rw [ez]; exact ⟨20, rfl, by norm_num, le_rfl⟩
  obtain ⟨q, eq, q1⟩ : ∃ q, val (Fl.max 1e-4 (Fl.min 20.0 d)) = fin q ∧ 1 ≤ q := by
    obtain ⟨c, hc, c0, c1⟩ := L.lit_unit (F := F) 1 true 4 (by norm_num) (by norm_num)
    rw [L.max, ey, show (1e-4 : F) = OfScientific.ofScientific 1 true 4 from rfl, hc, max_fin]
    exact ⟨_, rfl, le_max_of_le_right y1⟩
  have hm : val (-1.0 : F) = fin (-1) := by rw [L.neg, L.one, neg_fin]
  obtain ⟨z, ez, z0⟩ : ∃ z, val ((-1.0 : F) / Fl.ofNat k) = fin z ∧ z ≤ 0 := by
    have hk1 : Fl.le (fin 1) (val (Fl.ofNat k : F)) = true := by
      rw [L.ofNat]; exact L.one_le_rnd (by exact_mod_cast hk)
    rw [L.div, hm]
    · obtain ⟨x, ex, hx⟩ | ex := ge_cases hk1
      · have x0 : 0 < x := by linarith
        rw [ex, div_fin x0.ne', round_fin]
        have h1 : Fl.le (fin (-1)) (rnd (-1 / x)) = true := by
          rw [← L.rnd_val hm]
          exact L.rnd_mono (by rw [le_div_iff₀ x0]; linarith)
        have h2 : Fl.le (rnd (-1 / x)) (fin 0) = true := by
          rw [← L.rnd_zero]
          exact L.rnd_mono (by rw [div_le_iff₀ x0]; linarith)
        obtain ⟨z, ez, -, hz⟩ := mid_cases h1 h2
        exact ⟨z, ez, hz⟩
      · rw [ex, fin_div_pinf, round_fin, L.rnd_zero]
        exact ⟨0, rfl, le_rfl⟩
    · intro h0
      rw [h0] at hk1
      norm_num at hk1
  obtain ⟨w, ew, w0, w1⟩ := L.pow_le eq q1 ez z0
  obtain ⟨c, hc, c0, c1⟩ := L.lit_unit (F := F) 8 true 1 (by norm_num) (by norm_num)
  obtain ⟨x, ex, x0, x1⟩ := L.mul_shrink' ew w0 hc c0 c1
  exact ⟨x, ex, x0, x1.trans w1⟩

/-! ### The operations of a step -/

theorem FAtt.refresh (A : FAtt val o τ τf H old s) : FAtt val o τ τf H old (refreshJac s) := by
  refine ⟨A.1, A.2, A.3, A.4, A.5, A.6, A.7, A.8, ?_⟩
  intro c hc
  rcases List.mem_append.1 (show c ∈ s.trace ++ _ from hc) with hc | hc
  · exact A.calls c hc
  · exact .inr (.inl (by rw [jacobian_u_time _ _ _ _ _ _ c hc, A.time]))

/-- A smaller step. -/
theorem FAtt.shrink (A : FAtt val o τ τf H old s) {x : F} (hx : ∃ h, val x = fin h ∧ 0 ≤ h ∧ h ≤ H) (f : F) (r l : Bool) :
    FAtt val o τ τf H old { s with dt := x, cache := { s.cache with dtfac := f, reject := r, last := l } } :=
  ⟨A.1, A.2, A.3, A.4, hx, A.6, A.7, A.8, A.9⟩

theorem FAtt.halve (L : FloatLaws val rnd) (A : FAtt val o τ τf H old s) : FAtt val o τ τf H old (halveStep s) := by
  have : ∃ h, val (s.dt * 0.5) = fin h ∧ 0 ≤ h ∧ h ≤ H := by
    obtain ⟨h, e, h0, h1⟩ := A.dt
    obtain ⟨c, hc, c0, c1⟩ := L.lit_unit (F := F) 5 true 1 (by norm_num) (by norm_num)
    obtain ⟨z, ez, z0, z1⟩ := L.mul_shrink e h0 hc c0 c1
    exact ⟨z, ez, z0, z1.trans h1⟩
  simp only [halveStep]
  split
  · exact (A.shrink this _ _ _).refresh
  · exact A.shrink this _ _ _

theorem FAtt.slow (L : FloatLaws val rnd) (A : FAtt val o τ τf H old s) {d : F}
    (hn : s.cache.newt < s.opts.max_newt_iter) (hd : Fl.ge d 1.0 = true) : FAtt val o τ τf H old (slowStep s d) := by
  obtain ⟨c, hc, c0, c1⟩ := slow_fac L hd (4 + s.opts.max_newt_iter - 1 - s.cache.newt) (by omega)
  have := A.dt
  obtain ⟨h, e, h0, h1⟩ := this
  obtain ⟨z, ez, z0, z1⟩ := L.mul_shrink e h0 hc c0 c1
  simp only [slowStep]
  split
  · exact (A.shrink ⟨z, ez, z0, z1.trans h1⟩ _ _ _).refresh
  · exact A.shrink ⟨z, ez, z0, z1.trans h1⟩ _ _ _

theorem FAtt.reject (L : FloatLaws val rnd) (hS : FloatSane o) (A : FAtt val o τ τf H old s)
    (he : Fl.lt s.cache.err 1.0 = false) : FAtt val o τ τf H old (rejectStep s (stepQuot s)) := by
  obtain ⟨h, e, h0, h1⟩ := A.dt
  have d1 : ∃ h, val (s.dt * 0.1) = fin h ∧ 0 ≤ h ∧ h ≤ H := by
    obtain ⟨c, hc, c0, c1⟩ := L.lit_unit (F := F) 1 true 1 (by norm_num) (by norm_num)
    obtain ⟨z, ez, z0, z1⟩ := L.mul_shrink e h0 hc c0 c1
    exact ⟨z, ez, z0, z1.trans h1⟩
  have d2 : ∃ h, val (s.dt / stepQuot s) = fin h ∧ 0 ≤ h ∧ h ≤ H := by
    obtain ⟨z, ez, z0, z1⟩ := L.div_shrink e h0 (quot_reject L (s := s) (by rw [A.opts]; exact hS)
      (by rw [A.cfac, A.opts]) (by rw [A.opts]; exact A.newt) he)
    exact ⟨z, ez, z0, z1.trans h1⟩
  simp only [rejectStep]
  split <;> split
  · exact FAtt.refresh ⟨A.1, A.2, A.3, A.4, d1, A.6, A.7, A.8, A.9⟩
  · exact ⟨A.1, A.2, A.3, A.4, d1, A.6, A.7, A.8, A.9⟩
  · exact FAtt.refresh ⟨A.1, A.2, A.3, A.4, d2, A.6, A.7, A.8, A.9⟩
  · exact ⟨A.1, A.2, A.3, A.4, d2, A.6, A.7, A.8, A.9⟩

/-- Everything up to the decision. -/
theorem FAtt.closed (L : FloatLaws val rnd) : Closed (fun s : St F n P => FAtt val o τ τf H old s) where
  facs A := ⟨A.1, A.2, A.3, A.4, A.5, A.6, A.7, A.8, A.9⟩
  real A e := by
    obtain ⟨r, -, rfl⟩ := decomp_real_ok e
    exact ⟨A.1, A.2, A.3, A.4, A.5, A.6, A.7, A.8, A.9⟩
  cplx A e := by
    obtain ⟨r, -, rfl⟩ := decomp_complex_ok e
    exact ⟨A.1, A.2, A.3, A.4, A.5, A.6, A.7, A.8, A.9⟩
  count A := ⟨A.1, A.2, A.3, A.4, A.5, A.6, A.7, A.8, A.9⟩
  fail {s} A := by
    simp only [decFail]
    split
    · exact ⟨A.1, A.2, A.3, A.4, A.5, A.6, A.7, A.8, A.9⟩
    · exact FAtt.halve L ⟨A.1, A.2, A.3, A.4, A.5, A.6, A.7, A.8, A.9⟩
  init {s} A := by
    simp only [newtonInit, prepare_newton]
    split <;> exact ⟨A.1, A.2, A.3, A.4, A.5, A.6, A.7, Nat.zero_le _, A.9⟩
  rhs {s} A := by
    refine ⟨A.1, A.2, A.3, A.4, A.5, A.6, A.7, A.8, ?_⟩
    obtain ⟨h, e, h0, h1⟩ := A.dt
    have lit : ∀ (m : ℕ) (b : Bool) (ex : ℕ), 0 ≤ (OfScientific.ofScientific m b ex : ℝ) →
        (OfScientific.ofScientific m b ex : ℝ) ≤ 1 →
        ∃ k, val ((OfScientific.ofScientific m b ex : F) * s.dt) = fin k ∧ 0 ≤ k ∧ k ≤ H := by
      intro m b ex p q
      obtain ⟨c, hc, c0, c1⟩ := L.lit_unit (F := F) m b ex p q
      obtain ⟨k, hk, k0, k1⟩ := L.mul_shrink' e h0 hc c0 c1
      exact ⟨k, hk, k0, k1.trans h1⟩
    intro c hc
    rcases List.mem_append.1 (show c ∈ s.trace ++ [_, _, _] from hc) with hc | hc
    · exact A.calls c hc
    · right; right
      simp only [List.mem_cons, List.not_mem_nil, or_false] at hc
      rcases hc with rfl | rfl | rfl
      · obtain ⟨k, hk⟩ := lit 1550510257216822 true 16 (by norm_num) (by norm_num)
        exact ⟨_, k, by rw [← A.time]; rfl, hk⟩
      · obtain ⟨k, hk⟩ := lit 6449489742783178 true 16 (by norm_num) (by norm_num)
        exact ⟨_, k, by rw [← A.time]; rfl, hk⟩
      · exact ⟨_, h, by rw [← A.time]; rfl, e, h0, h1⟩
  solve {s} A hn := ⟨A.1, A.2, A.3, A.4, A.5, A.6, A.7, by rw [A.opts] at hn; exact hn, A.9⟩
  theta _ _ _ A := ⟨A.1, A.2, A.3, A.4, A.5, A.6, A.7, A.8, A.9⟩
  slow d A hn hd := A.slow L hn hd
  halve A := A.halve L
  upd A := ⟨A.1, A.2, A.3, A.4, A.5, A.6, A.7, A.8, A.9⟩
  err1 A := ⟨A.1, A.2, A.3, A.4, A.5, A.6, A.7, A.8, A.9⟩
  err2 {s} A := by
    refine ⟨A.1, A.2, A.3, A.4, A.5, A.6, A.7, A.8, ?_⟩
    intro c hc
    rcases List.mem_append.1 (show c ∈ s.trace ++ [_] from hc) with hc | hc
    · exact A.calls c hc
    · simp only [List.mem_singleton] at hc
      subst hc
      exact .inr (.inl A.time)
  decomp A := ⟨A.1, A.2, A.3, A.4, A.5, A.6, A.7, A.8, A.9⟩

/-- The calls after the decision are at the new time. -/
theorem accept_calls (q : F) : ∀ c ∈ (acceptStep s q).trace, c ∈ s.trace ∨ c.time = (acceptStep s q).t := by
  have e := (acceptStep_fields s q).2.2.2.2.2.1
  rw [e]
  have a2 : (acceptState (countAccept s)).trace = s.trace := by
    simp only [acceptState]
    split <;> rfl
  have a3 : (acceptState (countAccept s)).t = s.t + s.dt := by
    simp only [acceptState]
    split <;> rfl
  have hfin : ∀ x : St F n P, ∀ c ∈ (finishNext x).trace, c ∈ x.trace ∨ c.time = x.t := by
    intro x c hc
    simp only [finishNext] at hc
    split at hc
    · rcases List.mem_append.1 (show c ∈ x.trace ++ _ from hc) with hc | hc
      · exact .inl hc
      · exact .inr (jacobian_u_time _ _ _ _ _ _ c hc)
    · exact .inl hc
  have hnew : ∀ c ∈ (newDeriv (acceptState (countAccept s))).trace, c ∈ s.trace ∨ c.time = s.t + s.dt := by
    intro c hc
    rcases List.mem_append.1 (show c ∈ (acceptState (countAccept s)).trace ++ [_] from hc) with hc | hc
    · rw [a2] at hc; exact .inl hc
    · simp only [List.mem_singleton] at hc
      subst hc
      exact .inr a3
  have hnt : (newDeriv (acceptState (countAccept s))).t = s.t + s.dt := a3
  simp only [acceptStep]
  split
  · intro c hc
    exact .inl (a2 ▸ hc)
  · generalize newDeriv (acceptState (countAccept s)) = a at hnew hnt
    simp only [nextStep]
    intro c hc
    split at hc
    · obtain hc | hc := hfin _ c hc
      · exact hnew c hc
      · exact .inr (hc.trans hnt)
    · split at hc
      · exact hnew c hc
      · obtain hc | hc := hfin _ c hc
        · exact hnew c hc
        · exact .inr (hc.trans hnt)

/-- The step proposed after an accepted step is nonnegative. -/
theorem accept_dt (L : FloatLaws val rnd) (hS : FloatSane o) (A : FAtt val o τ τf H old s)
    (hle : Fl.le (val (s.t + s.dt)) (val τf) = true) (hfin : ∃ x, val τf = fin x) (hfin' : ∃ x, val (s.t + s.dt) = fin x) :
    Fl.le (fin 0) (val (acceptStep s (stepQuot s)).dt) = true ∧
    Fl.le (fin 0) (val (acceptStep s (stepQuot s)).cache.dtopt) = true ∧
    (acceptStep s (stepQuot s)).cache.cfac = s.cache.cfac ∧ (acceptStep s (stepQuot s)).cache.newt = s.cache.newt := by
  obtain ⟨h, e, h0, -⟩ := A.dt
  have hSs : FloatSane s.opts := by rw [A.opts]; exact hS
  have ha : (acceptState (countAccept s)).cache.cfac = s.cache.cfac ∧
      (acceptState (countAccept s)).cache.newt = s.cache.newt ∧
      (acceptState (countAccept s)).cache.dtopt = s.cache.dtopt ∧ (acceptState (countAccept s)).dt = s.dt ∧
      (acceptState (countAccept s)).t = s.t + s.dt ∧ (acceptState (countAccept s)).tfinal = s.tfinal ∧
      (acceptState (countAccept s)).tdir = s.tdir ∧ (acceptState (countAccept s)).opts = s.opts := by
    simp only [acceptState]
    split <;> exact ⟨rfl, rfl, rfl, rfl, rfl, rfl, rfl, rfl⟩
  obtain ⟨a1, a2, a3, a4, a5, a6, a7, a8⟩ := ha
  have habs : ∀ a : F, Fl.le (fin 0) (val a) = true → val (Fl.abs a) = val a := by
    intro a ha
    rw [L.abs]
    obtain ⟨y, e, hy⟩ | e := ge_cases ha
    · rw [e, abs_fin, abs_of_nonneg hy]
    · rw [e, abs_pinf]
  have hq : Fl.le (fin 0) (val ((countAccept s).dt / stepQuotPred (countAccept s) (stepQuot s))) = true :=
    L.div_nonneg' (show val (countAccept s).dt = _ from e) h0 (quotPred_pos L (quot_pos L hSs))
  simp only [acceptStep]
  generalize (countAccept s).dt / stepQuotPred (countAccept s) (stepQuot s) = dn at hq
  split
  · exact ⟨by change Fl.le _ (val (acceptState (countAccept s)).cache.dtopt) = _; rw [a3]; exact A.dtopt,
      by change Fl.le _ (val (acceptState (countAccept s)).cache.dtopt) = _; rw [a3]; exact A.dtopt, a1, a2⟩
  · obtain ⟨m, em⟩ : ∃ m, newDeriv (acceptState (countAccept s)) = m := ⟨_, rfl⟩
    have b1 : m.cache.cfac = s.cache.cfac := by rw [← em]; exact a1
    have b2 : m.cache.newt = s.cache.newt := by rw [← em]; exact a2
    have b4 : m.dt = s.dt := by rw [← em]; exact a4
    have b5 : m.t = s.t + s.dt := by rw [← em]; exact a5
    have b6 : m.tfinal = s.tfinal := by rw [← em]; exact a6
    have b7 : m.tdir = s.tdir := by rw [← em]; exact a7
    have b8 : m.opts = s.opts := by rw [← em]; exact a8
    rw [em]
    have htd : val m.tdir = fin 1 := by rw [b7]; exact A.tdir
    have hmx : Fl.le (fin 0) (val m.opts.dtmax) = true := by
      have := hSs.dtmax
      rwa [L.le_zero_iff, ← b8] at this
    have hmd : Fl.le (fin 0) (val m.dt) = true := by rw [b4, e]; simpa using h0
    have hmin : Fl.le (fin 0) (val (Fl.min (Fl.abs dn) m.opts.dtmax)) = true := by
      rw [L.min, habs _ hq]; exact le_min' hq (.inr hmx)
    have hcap : Fl.le (fin 0) (val (m.tdir * Fl.min (Fl.abs dn) m.opts.dtmax)) = true := by
      rw [L.mul_one_val htd hmin]; exact hmin
    have hcs : Fl.le (fin 0) (val (capStep m dn)) = true := by
      simp only [capStep]
      split
      · have : Fl.le (fin 0) (val (Fl.min (Fl.abs (m.tdir * Fl.min (Fl.abs dn) m.opts.dtmax)) (Fl.abs m.dt))) = true := by
          rw [L.min, habs _ hcap, habs _ hmd]; exact le_min' hcap (.inr hmd)
        rw [L.mul_one_val htd this]; exact this
      · exact hcap
    have hopt : Fl.le (fin 0) (val (Fl.min m.dt (m.tdir * Fl.min (Fl.abs dn) m.opts.dtmax))) = true := by
      rw [L.min]; exact le_min' hmd (.inr hcap)
    have hend : Fl.le (fin 0) (val (m.tfinal - m.t)) = true := by
      obtain ⟨x, hx⟩ := hfin
      obtain ⟨y, hy⟩ := hfin'
      rw [hx, hy] at hle
      have hle : y ≤ x := by simpa using hle
      rw [L.sub, b6, b5, A.tfinal, hx, hy, sub_fin, round_fin]
      exact L.rnd_nonneg (by linarith)
    have hfn : ∀ x : St F n P, (finishNext x).dt = x.dt ∧ (finishNext x).cache.dtopt = x.cache.dtopt ∧
        (finishNext x).cache.cfac = x.cache.cfac ∧ (finishNext x).cache.newt = x.cache.newt := by
      intro x
      simp only [finishNext]
      split <;> exact ⟨rfl, rfl, rfl, rfl⟩
    simp only [nextStep]
    split
    · obtain ⟨f1, f2, f3, f4⟩ := hfn { m with
        dt := m.tfinal - m.t
        cache := { m.cache with
          dtopt := Fl.min m.dt (m.tdir * Fl.min (Fl.abs dn) m.opts.dtmax), reject := false, last := true } }
      exact ⟨by rw [f1]; exact hend, by rw [f2]; exact hopt, f3.trans b1, f4.trans b2⟩
    · split
      · exact ⟨hmd, hopt, b1, b2⟩
      · obtain ⟨f1, f2, f3, f4⟩ := hfn { m with
          dt := capStep m dn
          cache := { m.cache with
            dtopt := Fl.min m.dt (m.tdir * Fl.min (Fl.abs dn) m.opts.dtmax), reject := false, dtfac := m.dt } }
        exact ⟨by rw [f1]; exact hcs, by rw [f2]; exact hopt, f3.trans b1, f4.trans b2⟩

/-- `h` is a step from `τ` that may pass the end only by rounding. -/
def Bounded (val : F → X) (τ τf : F) (h : ℝ) : Prop :=
  0 ≤ h ∧ ∀ a : F, ∀ k, val a = fin k → 0 ≤ k → k ≤ h →
    Fl.le (val (τ + a)) (val τf) = true ∨ Fl.le (val (τ + a)) (val (τ + (τf - τ))) = true

theorem FloatInv.clamp (L : FloatLaws val rnd) (hl : rnd (tf - t0) ≠ pinf) (I : FloatInv val o t0 tf t s) :
    ∃ h, Bounded val s.t s.tfinal h ∧ FAtt val o s.t s.tfinal h s.trace (clampLast s) := by
  have hd : ∃ d, val (s.tfinal - s.t) = fin d ∧ 0 ≤ d := by
    have h1 : val (s.tfinal - s.t) = rnd (tf - t) := by rw [L.sub, I.tfinal, I.time, sub_fin, round_fin]
    have h2 := L.rnd_nonneg (x := tf - t) (by linarith [I.le])
    have h3 := L.rnd_mono (x := tf - t) (y := tf - t0) (by linarith [I.ge])
    rw [h1]
    obtain ⟨y, e, hy⟩ | e := ge_cases h2
    · exact ⟨y, e, hy⟩
    · exfalso
      rw [e] at h3
      cases h : rnd (tf - t0) <;> simp_all [Fl.le, leX]
  unfold clampLast
  split
  · obtain ⟨d, e, d0⟩ := hd
    refine ⟨d, ⟨d0, fun a k ha k0 hk => .inr ((L.add_mono I.time ha k0).2 _ _ e hk)⟩, ?_⟩
    exact ⟨rfl, rfl, I.tdir, I.opts, ⟨d, e, d0, le_rfl⟩, I.dtopt, I.cfac, I.newt, fun c hc => .inl hc⟩
  · rename_i hc
    obtain ⟨c, hc1, hc2, hc3⟩ := L.lit_one_two (F := F) 10001 true 4 (by norm_num) (by norm_num)
    have hc' : Fl.le (fin 0) (val (s.t + s.dt * 1.0001 - s.tfinal * s.tdir)) = false := by
      rw [← L.le_zero_iff]; simpa [Fl.ge] using hc
    have etf : val (s.tfinal * s.tdir) = fin tf := by
      rw [L.mul, I.tfinal, I.tdir, mul_fin, mul_one, round_fin, L.rnd_val I.tfinal]
    obtain ⟨h, e, h0⟩ | e := ge_cases I.dt
    · have ec : val (s.t + s.dt * 1.0001 - s.tfinal * s.tdir) = val (s.t + 1.0001 * s.dt - s.tfinal) := by
        rw [L.sub, L.sub, L.add, L.add, L.mul s.dt, L.mul 1.0001 s.dt, etf, I.tfinal,
          show (1.0001 : F) = OfScientific.ofScientific 10001 true 4 from rfl, hc1, e, mul_fin, mul_fin, mul_comm]
      have hc2' : Fl.lt (fin 0) (val (s.t + 1.0001 * s.dt - s.tfinal)) = false := by
        rw [ec] at hc'
        by_contra hh
        rw [Bool.not_eq_false] at hh
        rw [le_of_lt hh] at hc'
        simp at hc'
      have hs := L.stretch I.time e h0 I.tfinal hc1 hc2 hc2'
      refine ⟨h, ⟨h0, fun a k ha k0 hk => .inl ?_⟩, ?_⟩
      · rw [I.tfinal]; exact le_trans' ((L.add_mono I.time ha k0).2 _ _ e hk) hs
      · exact ⟨rfl, rfl, I.tdir, I.opts, ⟨h, e, h0, le_rfl⟩, I.dtopt, I.cfac, I.newt, fun c hc => .inl hc⟩
    · exfalso
      rw [L.sub, L.add, L.mul s.dt, show (1.0001 : F) = OfScientific.ofScientific 10001 true 4 from rfl, hc1, e,
        pinf_mul (by linarith), round_pinf, I.time, fin_add_pinf, round_pinf, etf, pinf_sub_fin, round_pinf] at hc'
      simp [Fl.le, leX] at hc'

/-- One step of a forward run with rounding. -/
theorem FloatInv.step (L : FloatLaws val rnd) (hS : FloatSane o) (hl : rnd (tf - t0) ≠ pinf)
    (I : FloatInv val o t0 tf t s) (hr : Ready s) {fuel : ℕ} (h : step fuel s = .ok s') :
    (∀ c ∈ s'.trace, c ∈ s.trace ∨ Within s.t s.tfinal c.time) ∧
    Within s.t s.tfinal s'.t ∧ (Fl.le s'.t s.tfinal = true → ∃ t', FloatInv val o t0 tf t' s') := by
  obtain ⟨H, B, A0⟩ := I.clamp L hl
  have W : ∀ (a : F) (k : ℝ), val a = fin k → 0 ≤ k → k ≤ H → Within s.t s.tfinal (s.t + a) := by
    intro a k ha k0 hk
    refine ⟨?_, ?_⟩
    · rw [L.le, I.time]; exact (L.add_mono I.time ha k0).1
    · rw [L.le, L.le]; exact B.2 a k ha k0 hk
  have W0 : Within s.t s.tfinal s.t :=
    ⟨by rw [L.le, I.time]; simp, .inl (by rw [L.le, I.time, I.tfinal]; simpa using I.le)⟩
  have WC : ∀ c : Call F n, CallAt val s.t H c → Within s.t s.tfinal c.time := by
    rintro c (e | ⟨a, k, e, ha, k0, hk⟩)
    · rw [e]; exact W0
    · rw [e]; exact W a k ha k0 hk
  obtain ⟨d, A, he, rfl⟩ | ⟨d, c, A, rfl⟩ := step_inv (FAtt.closed (o := o) (τ := s.t) (τf := s.tfinal) (H := H)
    (old := s.trace) L) (fun A => ⟨A.1, A.2, A.3, A.4, A.5, A.6, A.7, A.8, A.9⟩) (fun A he => A.reject L hS he)
    hr.reject A0 h
  · obtain ⟨g, eg, g0, g1⟩ := A.dt
    have et : (acceptStep d (stepQuot d)).t = s.t + d.dt := by
      rw [(acceptStep_fields d (stepQuot d)).2.2.2.2.2.1, A.time]
    have w := W d.dt g eg g0 g1
    refine ⟨?_, by rw [et]; exact w, fun hle => ?_⟩
    · intro c hc
      obtain hc | hc := accept_calls _ c hc
      · exact (A.calls c hc).imp id (WC c)
      · right; rw [hc, et]; exact w
    · rw [et, L.le, I.tfinal] at hle
      have w1 := w.1
      rw [L.le, I.time] at w1
      obtain ⟨t', e', q1, q2⟩ := mid_cases w1 hle
      have ed : d.t + d.dt = s.t + d.dt := by rw [A.time]
      obtain ⟨b1, b2, b3, b4⟩ := accept_dt L hS A (by rw [ed, e', I.tfinal]; simpa using q2) ⟨_, I.tfinal⟩
        ⟨_, by rw [ed]; exact e'⟩
      have fr := StepFrame.accept d (stepQuot d)
      exact ⟨t', by rw [et]; exact e', by rw [fr.tfinal, A.tfinal]; exact I.tfinal, I.ge.trans q1, q2,
        by rw [fr.tdir]; exact A.tdir, by rw [fr.opts, A.opts], b1, b2, by rw [b3]; exact A.cfac,
        by rw [b4]; exact A.newt⟩
  · obtain ⟨g, eg, g0, -⟩ := A.dt
    have et : (setCode c d).t = s.t := A.time
    refine ⟨fun c hc => (A.calls c hc).imp id (WC c), by rw [et]; exact W0, fun _ => ⟨t, ?_⟩⟩
    exact ⟨by rw [et]; exact I.time, by change val d.tfinal = _; rw [A.tfinal]; exact I.tfinal, I.ge, I.le, A.tdir, A.opts,
      by change Fl.le _ (val d.dt) = _; rw [eg]; simpa using g0, A.dtopt, A.cfac, A.newt⟩

theorem FloatInv.build (L : FloatLaws val rnd) {b : Builder F n P} (H : ForwardSpan val b)
    (hb : b.build Radau.alg = .ok s) : ∃ t0 tf, val b.t = fin t0 ∧ rnd (tf - t0) ≠ pinf ∧
      FloatInv val (adjustOpts b.opts) t0 tf t0 s := by
  obtain ⟨t0, e0⟩ := H.t
  obtain ⟨tf, e1⟩ := H.tfinal
  obtain ⟨d, e2⟩ := H.length
  have hlt := H.lt
  rw [L.lt, e0, e1, lt_fin, decide_eq_true_eq] at hlt
  have e3 : val (b.tfinal - b.t) = rnd (tf - t0) := by rw [L.sub, e0, e1, sub_fin, round_fin]
  have hd := H.dt
  rw [L.le_zero_iff] at hd
  rw [← Res.ok.inj hb]
  refine ⟨t0, tf, e0, by rw [← e3, e2]; simp, e0, e1, le_rfl, hlt.le, ?_, rfl, hd, hd, rfl, Nat.zero_le _⟩
  change val (Fl.copysign 1.0 (b.tfinal - b.t)) = _
  rw [L.copysign, L.one]
  · simp
  · rw [e3]; exact L.rnd_pos e0 e1 hlt

theorem FloatSane.adjust (hS : FloatSane o) : FloatSane (adjustOpts o) :=
  ⟨hS.1, hS.2, hS.3, hS.4, hS.5, hS.6⟩

/-- As long as no recorded time exceeds `tfinal`, the run is in a good state. -/
theorem FloatInv.run (L : FloatLaws val rnd) {b : Builder F n P} (hS : FloatSane b.opts) {s0 : St F n P}
    (hl : rnd (tf - t0) ≠ pinf) (I : FloatInv val (adjustOpts b.opts) t0 tf t0 s0)
    (hb : b.build Radau.alg = .ok s0) {k : ℕ} (hs : SomeSteps Radau.alg none k s0 s) :
    Ready s ∧ ((∀ x ∈ s.sol.ts, Fl.le x b.tfinal = true) →
      ∃ t, FloatInv val (adjustOpts b.opts) t0 tf t s ∧ s.tfinal = b.tfinal) := by
  have hf : s0.tfinal = b.tfinal := by rw [← Res.ok.inj hb]
  refine SomeSteps.induct (alg := Radau.alg) (I := fun _ s => Ready s ∧ ((∀ x ∈ s.sol.ts, Fl.le x b.tfinal = true) →
    ∃ t, FloatInv val (adjustOpts b.opts) t0 tf t s ∧ s.tfinal = b.tfinal)) ?_ ?_ hs
  · exact ⟨build_ready hb, fun _ => ⟨t0, I, hf⟩⟩
  · rintro k s o s' ⟨hr, ih⟩ h1
    obtain ⟨⟨fuel, h1⟩, ho⟩ := stepReturns_none_iff.1 h1
    have hc : s'.sol.retcode = .Continue := by
      by_contra hc
      simp [hc] at ho
    obtain ⟨fr, h | h⟩ := step_cases hr h1
    · refine ⟨hr.step h1 hc, fun hin => ?_⟩
      obtain ⟨t, I, ht⟩ := ih fun x hx => hin x (by rw [h.ts]; simp [hx])
      obtain ⟨-, -, hI⟩ := I.step L hS.adjust hl hr h1
      rw [ht] at hI
      obtain ⟨t', I'⟩ := hI (hin _ (by rw [h.ts]; simp))
      exact ⟨t', I', by rw [fr.tfinal, ht]⟩
    · have := h.retcode; simp [hc] at this

end Radau

/-- **C64** With rounding: as long as no recorded time exceeds `tfinal`, the next time and all times at which the
right-hand side or the Jacobian is evaluated meanwhile (also by rejected attempts and failed Newton iterations) do not
lie before the current time `t`, and they lie beyond `tfinal` at most by the rounding error of `t + (tfinal - t)`. -/
theorem C64_float_step_radau (L : FloatLaws val rnd) {b : Builder F n P} (H : ForwardSpan val b)
    (hS : Radau.FloatSane b.opts) {s0 s s' : Radau.St F n P} (hb : b.build Radau.alg = .ok s0) {k : ℕ}
    (hs : SomeSteps Radau.alg none k s0 s) (hin : ∀ x ∈ s.sol.ts, Fl.le x b.tfinal = true) {o : Option ℕ}
    (h : StepReturns Radau.alg none s o s') :
    (s'.sol.ts = s.sol.ts ++ [s'.t] ∨ s'.sol.ts = s.sol.ts ∧ s'.t = s.t) ∧ Within s.t b.tfinal s'.t ∧
    ∀ c ∈ s'.trace, c ∈ s.trace ∨ Within s.t b.tfinal c.time := by
  obtain ⟨t0, tf, -, hl, I⟩ := Radau.FloatInv.build L H hb
  obtain ⟨hr, hI⟩ := Radau.FloatInv.run L hS hl I hb hs
  obtain ⟨t, I, ht⟩ := hI hin
  obtain ⟨⟨fuel, h⟩, -⟩ := stepReturns_none_iff.1 h
  obtain ⟨h1, h2, -⟩ := I.step L hS.adjust hl hr h
  rw [ht] at h1 h2
  refine ⟨?_, h2, h1⟩
  obtain ⟨-, h | h⟩ := Radau.step_cases hr h
  · exact .inl h.ts
  · exact .inr ⟨h.frame.ts, h.frame.t⟩

/-- **C64** If for no time `t` of the span `t + (tfinal - t)` is rounded beyond `tfinal`, then, with rounding, the times
recorded by a forward run never decrease, and all recorded times and all times at which the right-hand side or the
Jacobian is evaluated lie in the time span. -/
theorem C64_float_run_radau (L : FloatLaws val rnd) {b : Builder F n P} (H : ForwardSpan val b)
    (hS : Radau.FloatSane b.opts)
    (hno : ∀ t, Fl.le b.t t = true → Fl.le t b.tfinal = true → Fl.le (t + (b.tfinal - t)) b.tfinal = true)
    {s0 s : Radau.St F n P} (hb : b.build Radau.alg = .ok s0)
    (hs : (∃ k, SomeSteps Radau.alg none k s0 s) ∨ IntegrateReturns Radau.alg none s0 s) :
    s.sol.ts.Pairwise (fun a c => Fl.le a c = true) ∧
    (∀ x ∈ s.sol.ts, Fl.le b.t x = true ∧ Fl.le x b.tfinal = true) ∧
    ∀ c ∈ s.trace, Fl.le b.t c.time = true ∧ Fl.le c.time b.tfinal = true := by
  obtain ⟨t0, tf, e0, hl, I0⟩ := Radau.FloatInv.build L H hb
  have hf : s0.tfinal = b.tfinal := by rw [← Res.ok.inj hb]
  have ht0 : s0.t = b.t := by rw [← Res.ok.inj hb]
  have htr : ∀ {a c d : F}, Fl.le a c = true → Fl.le c d = true → Fl.le a d = true := by
    intro a c d h1 h2
    rw [L.le] at h1 h2 ⊢
    exact le_trans' h1 h2
  have hself : Fl.le b.t b.t = true := by rw [L.le, e0]; simp
  have hend : Fl.le b.t b.tfinal = true := by rw [L.le, ← ht0, ← hf, I0.time, I0.tfinal]; simpa using I0.le
  obtain ⟨J, hJ⟩ : ∃ J : Radau.St F n P → Prop, J = fun s =>
    (∃ t, Radau.FloatInv val (Radau.adjustOpts b.opts) t0 tf t s) ∧
    s.tfinal = b.tfinal ∧ s.sol.ts.Pairwise (fun a c => Fl.le a c = true) ∧
    (∀ x ∈ s.sol.ts, Fl.le b.t x = true ∧ Fl.le x s.t = true ∧ Fl.le x b.tfinal = true) ∧
    (Fl.le b.t s.t = true ∧ Fl.le s.t b.tfinal = true) ∧
    ∀ c ∈ s.trace, Fl.le b.t c.time = true ∧ Fl.le c.time b.tfinal = true := ⟨_, rfl⟩
  have hJs : ∀ {s s' : Radau.St F n P} {fuel : ℕ}, J s → Radau.Ready s → Radau.step fuel s = .ok s' → J s' := by
    intro s s' fuel hj hr h1
    rw [hJ] at hj ⊢
    obtain ⟨⟨t, I⟩, ht, hp, hx, ⟨g1, g2⟩, hc⟩ := hj
    obtain ⟨wc, w, hI⟩ := I.step L hS.adjust hl hr h1
    rw [ht] at w wc hI
    have ww : ∀ {x : F}, Within s.t b.tfinal x → Fl.le b.t x = true ∧ Fl.le x b.tfinal = true := by
      rintro x ⟨h1, h2 | h2⟩
      · exact ⟨htr g1 h1, h2⟩
      · exact ⟨htr g1 h1, htr h2 (hno _ g1 g2)⟩
    have hs' : Fl.le s'.t s'.t = true := by
      have := w.1
      rw [L.le] at this ⊢
      refine le_refl' fun h => ?_
      rw [h] at this
      cases h : val s.t <;> rw [h] at this <;> simp [Fl.le, leX] at this
    have hc' : ∀ c ∈ s'.trace, Fl.le b.t c.time = true ∧ Fl.le c.time b.tfinal = true := by
      intro c hc'
      obtain h | h := wc c hc'
      · exact hc c h
      · exact ww h
    obtain ⟨fr, ha | ha⟩ := Radau.step_cases hr h1
    · refine ⟨hI (ww w).2, by rw [fr.tfinal, ht], ?_, ?_, ww w, hc'⟩
      · rw [ha.ts, List.pairwise_append]
        refine ⟨hp, by simp, fun x hx' y hy => ?_⟩
        simp only [List.mem_singleton] at hy
        rw [hy]; exact htr (hx x hx').2.1 w.1
      · intro x hx'
        rw [ha.ts, List.mem_append, List.mem_singleton] at hx'
        obtain hx' | rfl := hx'
        · exact ⟨(hx x hx').1, htr (hx x hx').2.1 w.1, (hx x hx').2.2⟩
        · exact ⟨(ww w).1, hs', (ww w).2⟩
    · refine ⟨hI (ww w).2, by rw [fr.tfinal, ht], by rw [ha.frame.ts]; exact hp, ?_, ww w, hc'⟩
      rw [ha.frame.ts, ha.frame.t]
      exact hx
  have hJ0 : J s0 := by
    rw [hJ]
    have B := Radau.build_fields hb
    refine ⟨⟨t0, I0⟩, hf, by rw [B.1]; simp, ?_, by rw [ht0]; exact ⟨hself, hend⟩, ?_⟩
    · intro x hx
      rw [B.1] at hx
      simp only [List.mem_singleton] at hx
      rw [hx, ht0]; exact ⟨hself, hself, hend⟩
    · have e : s0.trace = Call.rhs b.t b.u :: (jacobian_u b.dudt b.dfdu (fun _ _ => 0.0) b.u b.t b.params).2 := by
        rw [← Res.ok.inj hb]
      intro c hc
      have : c.time = b.t := by
        rw [e] at hc
        rcases List.mem_cons.1 hc with rfl | hc
        · rfl
        · exact Radau.jacobian_u_time _ _ _ _ _ _ c hc
      rw [this]; exact ⟨hself, hend⟩
  have some : ∀ {k : ℕ} {s : Radau.St F n P}, SomeSteps Radau.alg none k s0 s → Radau.Ready s ∧ J s := by
    intro k s hs
    refine SomeSteps.induct (alg := Radau.alg) (I := fun _ s => Radau.Ready s ∧ J s) ⟨Radau.build_ready hb, hJ0⟩ ?_ hs
    rintro k s o s' ⟨hr, hj⟩ h1
    obtain ⟨⟨fuel, h1⟩, ho⟩ := stepReturns_none_iff.1 h1
    have hc : s'.sol.retcode = .Continue := by
      by_contra hc
      simp [hc] at ho
    exact ⟨hr.step h1 hc, hJs hj hr h1⟩
  have key : J s := by
    rcases hs with ⟨k, hs⟩ | hs
    · exact (some hs).2
    · obtain ⟨k, s1, h1, h2⟩ := (integrate_iff Radau.fuelMono).1 hs
      obtain ⟨⟨fuel, h2⟩, -⟩ := stepReturns_none_iff.1 h2
      obtain ⟨hr, hj⟩ := some h1
      exact hJs hj hr h2
  rw [hJ] at key
  exact ⟨key.2.2.1, fun x hx => ⟨(key.2.2.2.1 x hx).1, (key.2.2.2.1 x hx).2.2⟩, key.2.2.2.2.2⟩

end Cyphus
