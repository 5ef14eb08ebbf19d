import Verif.Proofs.RadauSpan
import Verif.Spec.RadauLaw
/-!
# Times and step sizes of `Radau5`, either direction

Within one call of `step` every attempted step is the first one times a factor in `(0, 1]`.
-/

namespace Cyphus
open X
set_option autoImplicit false
set_option linter.unusedSectionVars false

namespace Radau
noncomputable section
variable {n : ℕ} {P : Type} {C : Clock} {t H0 : ℝ} {s : St X n P}

/-- The attempted step is `H0` times a factor in `(0, 1]`. -/
def Seg (C : Clock) (t H0 : ℝ) (s : St X n P) : Prop := ∃ y, 0 < y ∧ y ≤ 1 ∧ Clk C False s t (H0 * y)

theorem Seg.closed : Closed (Seg (n := n) (P := P) C t H0) where
  facs := fun ⟨y, y0, y1, H⟩ => ⟨y, y0, y1, ⟨H.1, H.2, H.3, H.4, H.5, H.6, H.7, H.8, H.9, H.10, H.11, H.12⟩⟩
  real := fun ⟨y, y0, y1, H⟩ e => by
    obtain ⟨r, -, rfl⟩ := decomp_real_ok e
    exact ⟨y, y0, y1, ⟨H.1, H.2, H.3, H.4, H.5, H.6, H.7, H.8, H.9, H.10, H.11, H.12⟩⟩
  cplx := fun ⟨y, y0, y1, H⟩ e => by
    obtain ⟨r, -, rfl⟩ := decomp_complex_ok e
    exact ⟨y, y0, y1, ⟨H.1, H.2, H.3, H.4, H.5, H.6, H.7, H.8, H.9, H.10, H.11, H.12⟩⟩
  count := fun ⟨y, y0, y1, H⟩ => ⟨y, y0, y1, ⟨H.1, H.2, H.3, H.4, H.5, H.6, H.7, H.8, H.9, H.10, H.11, H.12⟩⟩
  fail := fun {s} ⟨y, y0, y1, H⟩ => by
    simp only [decFail]
    split
    · exact ⟨y, y0, y1, ⟨H.1, H.2, H.3, H.4, H.5, H.6, H.7, H.8, H.9, H.10, H.11, H.12⟩⟩
    · exact ⟨y * 0.5, by positivity, by linarith, mul_assoc H0 y 0.5 ▸ Clk.halve ⟨H.1, H.2, H.3, H.4, H.5, H.6, H.7, H.8, H.9, H.10, H.11, H.12⟩⟩
  init := fun {s} ⟨y, y0, y1, H⟩ => by
    simp only [newtonInit, prepare_newton]
    split <;> exact ⟨y, y0, y1, ⟨H.1, H.2, H.3, H.4, H.5, H.6, H.7, H.8, H.9, H.10, H.11, H.12⟩⟩
  rhs := fun ⟨y, y0, y1, H⟩ => ⟨y, y0, y1, ⟨H.1, H.2, H.3, H.4, H.5, H.6, H.7, H.8, H.9, H.10, H.11, H.12⟩⟩
  solve := fun ⟨y, y0, y1, H⟩ _ => ⟨y, y0, y1, ⟨H.1, H.2, H.3, H.4, H.5, H.6, H.7, H.8, H.9, H.10, H.11, H.12⟩⟩
  theta := fun _ _ _ ⟨y, y0, y1, H⟩ => ⟨y, y0, y1, ⟨H.1, H.2, H.3, H.4, H.5, H.6, H.7, H.8, H.9, H.10, H.11, H.12⟩⟩
  slow := fun d ⟨y, y0, y1, H⟩ hn hd => let ⟨z, z0, z1, a⟩ := H.slowBy hn hd
    ⟨y * z, mul_pos y0 z0, mul_le_one₀ y1 z0.le z1, mul_assoc H0 y z ▸ a⟩
  halve := fun ⟨y, y0, y1, H⟩ => ⟨y * 0.5, by positivity, by linarith, mul_assoc H0 y 0.5 ▸ Clk.halve H⟩
  upd := fun ⟨y, y0, y1, H⟩ => ⟨y, y0, y1, ⟨H.1, H.2, H.3, H.4, H.5, H.6, H.7, H.8, H.9, H.10, H.11, H.12⟩⟩
  err1 := fun ⟨y, y0, y1, H⟩ => ⟨y, y0, y1, ⟨H.1, H.2, H.3, H.4, H.5, H.6, H.7, H.8, H.9, H.10, H.11, H.12⟩⟩
  err2 := fun ⟨y, y0, y1, H⟩ => ⟨y, y0, y1, ⟨H.1, H.2, H.3, H.4, H.5, H.6, H.7, H.8, H.9, H.10, H.11, H.12⟩⟩
  decomp := fun ⟨y, y0, y1, H⟩ => ⟨y, y0, y1, ⟨H.1, H.2, H.3, H.4, H.5, H.6, H.7, H.8, H.9, H.10, H.11, H.12⟩⟩

theorem Seg.tick (H : Seg C t H0 s) : Seg C t H0 (tick s) := by
  obtain ⟨y, y0, y1, H⟩ := H
  exact ⟨y, y0, y1, ⟨H.1, H.2, H.3, H.4, H.5, H.6, H.7, H.8, H.9, H.10, H.11, H.12⟩⟩

theorem Seg.reject (H : Seg C t H0 s) (hS : C.Sane) (he : Fl.lt s.cache.err 1.0 = false) :
    Seg C t H0 (rejectStep s (stepQuot s)) := by
  obtain ⟨y, y0, y1, H⟩ := H
  obtain ⟨z, z0, z1, a⟩ := H.rejectBy he
  exact ⟨y * z, mul_pos y0 z0, mul_le_one₀ y1 z0.le (z1 hS), mul_assoc H0 y z ▸ a⟩

/-- The span of the attempts. -/
structure Around (D : Clock) (t H0 : ℝ) : Prop where
  lo : D.t0 ≤ t
  hi : t ≤ D.tf
  lo' : D.t0 ≤ t + H0
  hi' : t + H0 ≤ D.tf

theorem Around.at {D : Clock} (A : Around D t H0) {x : ℝ} (h0 : 0 ≤ x) (h1 : x ≤ 1) :
    D.t0 ≤ t + H0 * x ∧ t + H0 * x ≤ D.tf := by
  obtain ⟨a, b, c, d⟩ := A
  constructor <;> nlinarith

theorem Seg.closedSpan {D : Clock} (A : Around D t H0) :
    Closed (fun s : St X n P => Seg C t H0 s ∧ D.t0 ≤ t ∧ InSpan D s) := by
  have K := Seg.closed (n := n) (P := P) (C := C) (t := t) (H0 := H0)
  have le : ∀ {s : St X n P}, Seg C t H0 s → s.t = fin t ∧ t ≤ D.tf := by
    rintro s ⟨y, -, -, H⟩
    exact ⟨H.time, A.hi⟩
  refine .ofOps ?_ ?_ ?_ ?_ ?_ ?_ ?_ ?_ ?_ ?_ ?_ ?_ ?_ ?_ ?_
  · exact fun ⟨h1, h2, h3⟩ => ⟨K.facs h1, h2, h3⟩
  · intro s s' ier ⟨h1, h2, h3⟩ e
    refine ⟨K.real h1 e, h2, ?_⟩
    obtain ⟨r, -, rfl⟩ := decomp_real_ok e
    exact h3
  · intro s s' ier ⟨h1, h2, h3⟩ e
    refine ⟨K.cplx h1 e, h2, ?_⟩
    obtain ⟨r, -, rfl⟩ := decomp_complex_ok e
    exact h3
  · exact fun ⟨h1, h2, h3⟩ => ⟨K.count h1, h2, h3⟩
  · intro s ⟨h1, h2, h3⟩
    refine ⟨K.fail h1, h2, ?_⟩
    obtain ⟨e1, e2⟩ := le h1
    simp only [decFail, halveStep]
    split
    · exact h3
    · split
      · exact InSpan.refresh (show InSpan D _ from h3) e1 h2 e2
      · exact h3
  · intro s ⟨h1, h2, h3⟩
    refine ⟨K.init h1, h2, ?_⟩
    simp only [newtonInit, prepare_newton]
    split <;> exact h3
  · intro s ⟨⟨y, y0, y1, H⟩, h2, h3⟩
    refine ⟨K.rhs ⟨y, y0, y1, H⟩, h2, ?_⟩
    intro c hc
    rcases List.mem_append.1 (show c ∈ s.trace ++ [_, _, _] from hc) with hc | hc
    · exact h3 c hc
    · simp only [List.mem_cons, List.not_mem_nil, or_false] at hc
      rcases hc with rfl | rfl | rfl
      · refine ⟨t + 0.1550510257216822 * (H0 * y), ?_, ?_⟩
        · simp only [Call.time, H.time, H.step]
          exact (congrArg (fin t + ·) (mul_fin _ _)).trans (add_fin _ _)
        · have := A.at (x := y * 0.1550510257216822) (by positivity) (by norm_num; linarith)
          rwa [show H0 * (y * 0.1550510257216822) = 0.1550510257216822 * (H0 * y) by ring] at this
      · refine ⟨t + 0.6449489742783178 * (H0 * y), ?_, ?_⟩
        · simp only [Call.time, H.time, H.step]
          exact (congrArg (fin t + ·) (mul_fin _ _)).trans (add_fin _ _)
        · have := A.at (x := y * 0.6449489742783178) (by positivity) (by norm_num; linarith)
          rwa [show H0 * (y * 0.6449489742783178) = 0.6449489742783178 * (H0 * y) by ring] at this
      · refine ⟨t + H0 * y, ?_, A.at y0.le y1⟩
        simp only [Call.time, H.time, H.step]
        exact add_fin _ _
  · exact fun ⟨h1, h2, h3⟩ hn => ⟨K.solve h1 hn, h2, h3⟩
  · exact fun a b c ⟨h1, h2, h3⟩ => ⟨K.theta a b c h1, h2, h3⟩
  · intro s d ⟨h1, h2, h3⟩ hn hd
    refine ⟨K.slow d h1 hn hd, h2, ?_⟩
    obtain ⟨e1, e2⟩ := le h1
    simp only [slowStep]
    split
    · exact InSpan.refresh (show InSpan D _ from h3) e1 h2 e2
    · exact h3
  · intro s ⟨h1, h2, h3⟩
    refine ⟨K.halve h1, h2, ?_⟩
    obtain ⟨e1, e2⟩ := le h1
    simp only [halveStep]
    split
    · exact InSpan.refresh (show InSpan D _ from h3) e1 h2 e2
    · exact h3
  · exact fun ⟨h1, h2, h3⟩ => ⟨K.upd h1, h2, h3⟩
  · exact fun ⟨h1, h2, h3⟩ => ⟨K.err1 h1, h2, h3⟩
  · intro s ⟨h1, h2, h3⟩
    refine ⟨K.err2 h1, h2, ?_⟩
    obtain ⟨e1, e2⟩ := le h1
    intro c hc
    rcases List.mem_append.1 (show c ∈ s.trace ++ [_] from hc) with hc | hc
    · exact h3 c hc
    · simp only [List.mem_singleton] at hc
      subst hc
      exact ⟨t, e1, h2, e2⟩
  · exact fun ⟨h1, h2, h3⟩ => ⟨K.decomp h1, h2, h3⟩

theorem Seg.rejectSpan {D : Clock} (A : Around D t H0) (hS : C.Sane) (H : Seg C t H0 s ∧ D.t0 ≤ t ∧ InSpan D s)
    (he : Fl.lt s.cache.err 1.0 = false) :
    Seg C t H0 (rejectStep s (stepQuot s)) ∧ D.t0 ≤ t ∧ InSpan D (rejectStep s (stepQuot s)) := by
  obtain ⟨H, h2, h3⟩ := H
  refine ⟨H.reject hS he, h2, ?_⟩
  have e1 : s.t = fin t := by obtain ⟨y, -, -, H⟩ := H; exact H.time
  simp only [rejectStep]
  split <;> split
  · exact InSpan.refresh (show InSpan D _ from h3) e1 h2 A.hi
  · exact h3
  · exact InSpan.refresh (show InSpan D _ from h3) e1 h2 A.hi
  · exact h3

theorem Idle.seg' {h : ℝ} (H : Idle C False s t h) (hc : s.sol.retcode = .Continue) :
    Clk C False (clampLast s) t (C.tried t h) := by
  obtain ⟨h', H'⟩ := H.clamp hc
  have e : h' = C.tried t h := by
    have := H'.step
    unfold clampLast at this
    simp only [H.time, H.step, H.tfinal, H.tdir] at this
    rw [show (1.0001 : X) = fin 1.0001 from rfl, show (0.0 : X) = fin 0.0 from rfl, mul_fin, mul_fin, add_fin, sub_fin,
      ge_fin] at this
    unfold Clock.tried
    rw [show ((0.0 : ℝ)) = 0 by norm_num] at this
    by_cases hc : 0 ≤ t + h * 1.0001 - C.tf * C.d
    · rw [if_pos (by simpa using hc)] at this
      rw [sub_fin, fin_inj] at this
      rw [if_pos hc, this]
    · rw [if_neg (by simpa using hc)] at this
      rw [if_neg hc]
      rw [show s.dt = fin h from H.step, fin_inj] at this
      exact this.symm
  exact e ▸ H'

theorem Idle.seg {h : ℝ} (H : Idle C False s t h) (hc : s.sol.retcode = .Continue) :
    Seg C t (C.tried t h) (clampLast s) :=
  ⟨1, one_pos, le_rfl, by rw [mul_one]; exact H.seg' hc⟩

/-- One call of `step`. -/
theorem Idle.seg_step {h : ℝ} (H : Idle C False s t h) (hS : C.Sane) (hr : Ready s) {fuel : ℕ} {s' : St X n P}
    (hs : Radau.step fuel s = .ok s') :
    (∃ y h', 0 < y ∧ y ≤ 1 ∧ TookStep C False s s' t (C.tried t h * y) h') ∨
      (s'.sol.retcode ≠ .Continue ∧ s'.sol.retcode ≠ .Success) := by
  obtain ⟨h1, h', T⟩ | hc := H.run_step hr hs
  · left
    obtain ⟨k, s1, ha', sp, -, ⟨d, ⟨y, y0, y1, Hd⟩, hsm, hd⟩ | hfl⟩ := step_specI
      (I := Seg C t (C.tried t h)) Seg.closed Seg.tick (fun H he => H.reject hS he) hr.reject (H.seg hr.retcode) hs
    · have a := acceptStep_fields d (stepQuot d)
      simp only at a
      have a9 := a.2.2.2.2.2.2.2.2.1
      rw [← hd.eq, T.dtprev, Hd.step, fin_inj] at a9
      exact ⟨y, h', y0, y1, a9 ▸ T⟩
    · have h1 := hfl.retcode
      have h2 := hfl.code
      rw [sp.retcode, (clampLast_fields s).2.1, hr.retcode] at h2
      exfalso
      rcases T.code with ha | ⟨ha, -⟩
      · exact h1 ha
      · obtain h2 | h2 | h2 | h2 := h2 <;> rw [ha] at h2 <;> simp at h2
  · exact .inr hc

theorem Idle.span_step {h : ℝ} (H : Idle C False s t h) (hS : C.Sane) (hr : Ready s) {D : Clock}
    (A : Around D t (C.tried t h)) (hsp : InSpan D s) {fuel : ℕ} {s' : St X n P} (h1 : Radau.step fuel s = .ok s') :
    InSpan D s' := by
  have hcl : InSpan D (clampLast s) := by
    unfold clampLast; split <;> exact hsp
  obtain ⟨d, ⟨⟨y, y0, y1, G⟩, -, hd⟩, he, rfl⟩ | ⟨d, c, ⟨-, -, hd⟩, rfl⟩ := step_inv (Seg.closedSpan A)
    (fun ⟨h1, h2, h3⟩ => ⟨Seg.tick h1, h2, h3⟩) (fun H he => Seg.rejectSpan A hS H he) hr.reject
    ⟨H.seg hr.retcode, A.lo, hcl⟩ h1
  · obtain ⟨p, q⟩ := A.at y0.le y1
    refine hd.accept (t' := t + C.tried t h * y) _ ?_ p q
    rw [(acceptStep_fields d (stepQuot d)).2.2.2.2.2.1, G.time, G.step, add_fin]
  · exact hd

end
end Radau
end Cyphus
