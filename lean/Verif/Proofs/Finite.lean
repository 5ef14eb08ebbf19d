import Verif.Proofs.RadauRun
import Verif.Proofs.LuRange
/-!
# Finite values in `X`

A finite result of an arithmetic operation on the IEEE special values only arises from finite arguments, except that
a quotient may have an infinite denominator.
-/

namespace Cyphus
open X
set_option autoImplicit false
set_option linter.unusedSectionVars false

namespace X

/-- A real number, that is, neither an infinity nor NaN. -/
def IsFin (a : X) : Prop := ∃ r, a = fin r

theorem IsFin.lit {r : ℝ} : IsFin (fin r) := ⟨r, rfl⟩

theorem not_infSign {r x : ℝ} : infSign r ≠ fin x := by unfold infSign; split_ifs <;> simp

theorem IsFin.add_iff {a b : X} : IsFin (a + b) ↔ IsFin a ∧ IsFin b := by
  constructor
  · rintro ⟨r, h⟩
    change add a b = _ at h
    cases a <;> cases b <;> simp_all [add, IsFin]
  · rintro ⟨⟨x, rfl⟩, y, rfl⟩; exact ⟨_, rfl⟩

theorem IsFin.neg_iff {a : X} : IsFin (-a) ↔ IsFin a := by
  constructor
  · rintro ⟨r, h⟩
    change neg a = _ at h
    cases a <;> simp_all [neg, IsFin]
  · rintro ⟨x, rfl⟩; exact ⟨_, rfl⟩

theorem IsFin.sub_iff {a b : X} : IsFin (a - b) ↔ IsFin a ∧ IsFin b := by
  change IsFin (a + -b) ↔ _
  rw [add_iff, neg_iff]

theorem IsFin.mul_iff {a b : X} : IsFin (a * b) ↔ IsFin a ∧ IsFin b := by
  constructor
  · rintro ⟨r, h⟩
    change mul a b = _ at h
    cases a <;> cases b <;> simp_all [mul, IsFin, not_infSign]
  · rintro ⟨⟨x, rfl⟩, y, rfl⟩; exact ⟨_, rfl⟩

theorem IsFin.of_div {a b : X} (h : IsFin (a / b)) : IsFin a := by
  obtain ⟨r, h⟩ := h
  change div a b = _ at h
  cases a <;> cases b <;> simp_all [div, IsFin]
  all_goals (split_ifs at h)

theorem IsFin.div_lit {a : X} {b : ℝ} (ha : IsFin a) (hb : b ≠ 0) : IsFin (a / fin b) := by
  obtain ⟨x, rfl⟩ := ha
  exact ⟨_, div_fin hb⟩

theorem IsFin.of_sqrt {a : X} (h : IsFin (Fl.sqrt a)) : IsFin a := by
  obtain ⟨r, h⟩ := h
  change sqrtX a = _ at h
  cases a <;> simp_all [sqrtX, IsFin]

theorem IsFin.of_sq {a : X} (h : IsFin (Fl.powi a 2)) : IsFin a := by
  obtain ⟨r, h⟩ := h
  change powX a (fin ((2 : ℤ) : ℝ)) = _ at h
  cases a with
  | fin x => exact ⟨x, rfl⟩
  | nan => simp [powX] at h
  | pinf => simp [powX] at h
  | ninf =>
    exfalso
    simp [powX] at h
    split_ifs at h

theorem IsFin.sumLoop {n : ℕ} {a : X} {f : Fin n → X} (h : IsFin (sumLoop n a f)) (i : Fin n) : IsFin (f i) := by
  have : ∀ (l : List (Fin n)) (a : X), IsFin (l.foldl (fun acc i => acc + f i) a) → IsFin a ∧ ∀ i ∈ l, IsFin (f i) := by
    intro l
    induction l with
    | nil => intro a h; exact ⟨h, by simp⟩
    | cons x l ih =>
      intro a h
      obtain ⟨h1, h2⟩ := ih _ h
      rw [add_iff] at h1
      exact ⟨h1.1, by simpa using ⟨h1.2, h2⟩⟩
  exact (this _ a h).2 i (List.mem_finRange i)

end X

namespace Linalg

/-- The first `n` entries are finite. -/
def AllFin (n : ℕ) (b : NVec X) : Prop := ∀ i, i < n → IsFin (b i)

theorem AllFin.of_set {n k : ℕ} {b : NVec X} {x : X} (h : AllFin n (set1 b k x)) (hx : IsFin x → IsFin (b k)) :
    AllFin n b := by
  intro i hi
  have := h i hi
  unfold set1 at this
  split at this
  · rename_i e; rw [e]; exact hx this
  · exact this

theorem AllFin.of_add {n lo hi : ℕ} {c : ℕ → X} {b : NVec X}
    (h : AllFin n (forRange lo hi b fun b i => set1 b i (b i + c i))) : AllFin n b :=
  forRange_back (I := AllFin n) (fun _ _ _ _ h => h.of_set fun h => (IsFin.add_iff.1 h).1) h

/-- If the solution of a linear system is finite then so is the right-hand side. -/
theorem AllFin.of_sol {n : ℕ} {a : NMat X} {b : NVec X} {ip : ℕ → ℤ} (hip : IpOk n ip)
    (h : AllFin n (sol n a b ip)) : AllFin n b := by
  unfold sol at h
  replace h := AllFin.of_set h IsFin.of_div
  split at h
  · have h1 : AllFin n (forRange 0 (n - 1) b (fwdStep a ip n)) :=
      forRange_back (I := AllFin n) (fun s k _ _ h => (AllFin.of_add h).of_set IsFin.of_div) h
    refine forRange_back (I := AllFin n) (fun s k _ hk h => ?_) h1
    have := hip k hk
    exact all_swap (by omega) (by omega) (AllFin.of_add h)
  · exact h

/-- The first `n` entries of both vectors are finite. -/
def AllFinc (n : ℕ) (b : NVec X × NVec X) : Prop := ∀ i, i < n → IsFin (b.1 i) ∧ IsFin (b.2 i)

theorem AllFinc.of_set {n k : ℕ} {b : NVec X × NVec X} {x y : X} (h : AllFinc n (set1 b.1 k x, set1 b.2 k y))
    (hx : IsFin x → IsFin y → IsFin (b.1 k) ∧ IsFin (b.2 k)) : AllFinc n b := by
  intro i hi
  have := h i hi
  unfold set1 at this
  dsimp only at this
  split at this
  · rename_i e; rw [e]; exact hx this.1 this.2
  · exact this

theorem AllFinc.of_add {n lo hi : ℕ} {c d : ℕ → X} {b : NVec X × NVec X}
    (h : AllFinc n (forRange lo hi b fun b i => (set1 b.1 i (b.1 i + c i), set1 b.2 i (b.2 i + d i)))) : AllFinc n b :=
  forRange_back (I := AllFinc n)
    (fun _ _ _ _ h => h.of_set fun h h' => ⟨(IsFin.add_iff.1 h).1, (IsFin.add_iff.1 h').1⟩) h

theorem AllFinc.of_div {n k : ℕ} {ar ai : NMat X} {b : NVec X × NVec X} (h : AllFinc n (divDiagc ar ai b k)) :
    AllFinc n b := by
  refine AllFinc.of_set h fun h _ => ?_
  have := IsFin.add_iff.1 (IsFin.of_div h)
  exact ⟨(IsFin.mul_iff.1 this.1).1, (IsFin.mul_iff.1 this.2).1⟩

theorem AllFinc.of_solc {n : ℕ} {ar ai : NMat X} {b : NVec X × NVec X} {ip : ℕ → ℤ} (hip : IpOk n ip)
    (h : AllFinc n (solc n ar ai b ip)) : AllFinc n b := by
  unfold solc at h
  replace h := AllFinc.of_div h
  split at h
  · have h1 : AllFinc n (forRange 0 (n - 1) b (fwdStepc ar ai ip n)) :=
      forRange_back (I := AllFinc n) (fun s k _ _ h => (AllFinc.of_add h).of_div) h
    refine forRange_back (I := AllFinc n) (fun s k _ hk h => ?_) h1
    have := hip k hk
    have h2 := AllFinc.of_add h
    have e1 := all_swap (p := IsFin) (b := s.1) (show k < n by omega) (show (ip k).toNat < n by omega)
      fun i hi => (h2 i hi).1
    have e2 := all_swap (p := IsFin) (b := s.2) (show k < n by omega) (show (ip k).toNat < n by omega)
      fun i hi => (h2 i hi).2
    exact fun i hi => ⟨e1 i hi, e2 i hi⟩
  · exact h

end Linalg

namespace Radau
open Linalg

section any
variable {F : Type} {n : ℕ} {P : Type} [Add F] [Sub F] [Mul F] [Div F] [Neg F] [OfScientific F] [Fl F]

/-- The pivots of both decompositions are indices of rows. -/
def Pivots (s : St F n P) : Prop := IpOk n s.cache.ip1 ∧ IpOk n s.cache.ip2

theorem Pivots.closed : Closed (Pivots : St F n P → Prop) where
  facs h := h
  real h e := by
    obtain ⟨r, hr, rfl⟩ := decomp_real_ok e
    exact ⟨h.1.dec hr, h.2⟩
  cplx h e := by
    obtain ⟨r, hr, rfl⟩ := decomp_complex_ok e
    exact ⟨h.1, h.2.decc hr⟩
  count h := h
  fail {s} h := by
    simp only [decFail, halveStep]
    split
    · exact h
    · split <;> exact h
  init {s} h := by
    simp only [newtonInit, prepare_newton]
    split <;> exact h
  rhs h := h
  solve h _ := h
  theta _ _ _ h := h
  slow {s} d h _ _ := by
    simp only [slowStep]
    split <;> exact h
  halve {s} h := by
    simp only [halveStep]
    split <;> exact h
  upd h := h
  err1 h := h
  err2 h := h
  decomp h := h

theorem Pivots.reject {s : St F n P} (h : Pivots s) (q : F) : Pivots (rejectStep s q) := by
  simp only [rejectStep]
  repeat' split
  all_goals exact h

theorem Pivots.accept {s : St F n P} (h : Pivots s) (q : F) : Pivots (acceptStep s q) := by
  have h1 : Pivots (acceptState (countAccept s)) := by
    simp only [acceptState]; split <;> exact h
  have h2 : ∀ {s : St F n P}, Pivots s → Pivots (finishNext s) := by
    intro s h; simp only [finishNext]; split <;> exact h
  have h3 : ∀ {s : St F n P} (d), Pivots s → Pivots (nextStep s d) := by
    intro s d h; simp only [nextStep]; split
    · exact h2 h
    · split
      · exact h
      · exact h2 h
  simp only [acceptStep]
  split
  · exact h1
  · exact h3 _ h1

theorem Pivots.clamp {s : St F n P} (h : Pivots s) : Pivots (clampLast s) := by
  simp only [clampLast]; split <;> exact h

theorem Pivots.step {s s' : St F n P} {fuel : ℕ} (h : Pivots s) (hs : step fuel s = .ok s') : Pivots s' :=
  Pivots.closed.step (fun h => h.clamp) (fun h => h) (fun h _ => h.reject _) (fun h _ => h.accept _) (fun _ h => h) h hs

/-- The scale of the error norms is only changed by accepting a step. -/
theorem scal_closed (c : Vec n F) : Closed (fun s : St F n P => s.cache.scal = c) where
  facs h := h
  real h e := by obtain ⟨r, hr, rfl⟩ := decomp_real_ok e; exact h
  cplx h e := by obtain ⟨r, hr, rfl⟩ := decomp_complex_ok e; exact h
  count h := h
  fail {s} h := by
    simp only [decFail, halveStep]
    split
    · exact h
    · split <;> exact h
  init {s} h := by
    simp only [newtonInit, prepare_newton]
    split <;> exact h
  rhs h := h
  solve h _ := h
  theta _ _ _ h := h
  slow {s} d h _ _ := by
    simp only [slowStep]
    split <;> exact h
  halve {s} h := by
    simp only [halveStep]
    split <;> exact h
  upd h := h
  err1 h := h
  err2 h := h
  decomp h := h

theorem scal_reject {s : St F n P} {c : Vec n F} (h : s.cache.scal = c) (q : F) : (rejectStep s q).cache.scal = c := by
  simp only [rejectStep]
  repeat' split
  all_goals exact h

theorem scal_clamp {s : St F n P} {c : Vec n F} (h : s.cache.scal = c) : (clampLast s).cache.scal = c := by
  simp only [clampLast]; split <;> exact h

/-- A step that accepts does so after a successful Newton iteration started in a state with the pivots in range. -/
theorem step_newton {fuel : ℕ} {s s' : St F n P} (hr : Ready s) (hp : Pivots s) (h : step fuel s = .ok s') :
    (∃ s1 s2 : St F n P, Pivots s1 ∧ s1.cache.scal = s.cache.scal ∧ s1.u = s.u ∧ s1.opts = s.opts ∧ s1.dudt = s.dudt ∧ s1.params = s.params ∧ newton s1 = .ok (s2, true) ∧
      s'.u = (fun i => s.u i + s2.cache.z3 i) ∧ s'.sol.us = s.sol.us ++ [s'.u]) ∨
    (s'.cache.scal = s.cache.scal ∧ s'.u = s.u ∧ s'.sol.us = s.sol.us) := by
  obtain ⟨k, s1, -, ha, hf⟩ := step_ok h
  have sp := ha.spec (L_clampLast hr.reject)
  have hp1 := Pivots.closed.attsL (fun h => h) (fun h _ => h.reject _) (L_clampLast hr.reject) hp.clamp ha
  have hq1 := (scal_closed s.cache.scal).attsL (fun h => h) (fun h _ => scal_reject h _) (L_clampLast hr.reject) (scal_clamp rfl) ha
  have fr := (Frame.clampLast s).trans sp.frame
  cases hf with
  | singular h1 =>
    have := fr.trans (Frame.decPhase h1)
    have hq : (_ : St F n P).cache.scal = s.cache.scal := (scal_closed s.cache.scal).decPhase hq1 h1
    exact .inr ⟨hq, this.u, this.us⟩
  | maxIters h1 _ =>
    have := (fr.trans (Frame.decPhase h1)).trans ((Frame.tick _).trans (Frame.setCode .MaxIters _))
    have hq : (_ : St F n P).cache.scal = s.cache.scal := (scal_closed s.cache.scal).decPhase hq1 h1
    exact .inr ⟨hq, this.u, this.us⟩
  | small h1 _ _ =>
    have := (fr.trans (Frame.decPhase h1)).trans ((Frame.tick _).trans (Frame.setCode .DtLessThanMin _))
    have hq : (_ : St F n P).cache.scal = s.cache.scal := (scal_closed s.cache.scal).decPhase hq1 h1
    exact .inr ⟨hq, this.u, this.us⟩
  | @done s2 s3 fuel h1 h2 h3 h4 h5 =>
    left
    have f1 := (fr.trans (Frame.decPhase h1)).trans (Frame.tick _)
    have f2 := f1.trans ((Frame.newton h4).trans (Frame.decided _))
    have hp2 : Pivots s2 := Pivots.closed.decPhase hp1 h1
    have hq2 : s2.cache.scal = s.cache.scal := (scal_closed s.cache.scal).decPhase hq1 h1
    refine ⟨tick s2, s3, hp2, hq2, f1.u, f1.opts, f1.dudt, f1.params, h4, ?_⟩
    rw [control_eq] at h5 ⊢
    split at h5
    · rename_i hlt
      rw [if_pos hlt]
      have a := acceptStep_fields (decided s3) (stepQuot (decided s3))
      have ez : (decided s3).cache.z3 = s3.cache.z3 := by
        simp only [decided, error_estimate]
        split
        · rfl
        · split <;> rfl
      rw [a.2.2.2.2.1, a.2.2.2.2.2.2.2.2.2.2.2.2.2.1, ez, f2.u, f2.us]
      exact ⟨rfl, rfl⟩
    · rw [(rejectStep_fields _ _).2.2.1] at h5; simp at h5

end any

noncomputable section
variable {n : ℕ} {P : Type}

/-- Not negative (NaN allowed). -/
def NN (a : X) : Prop := a ≠ ninf ∧ ∀ r, a = fin r → 0 ≤ r

theorem NN.sqrt (a : X) : NN (Fl.sqrt a) := by
  change NN (sqrtX a)
  cases a with
  | fin r =>
    simp only [sqrtX]
    split_ifs
    · exact ⟨by simp, by simp⟩
    · exact ⟨by simp, fun x h => by rw [← X.fin.inj h]; exact Real.sqrt_nonneg _⟩
  | nan => exact ⟨by simp [sqrtX], by simp [sqrtX]⟩
  | pinf => exact ⟨by simp [sqrtX], by simp [sqrtX]⟩
  | ninf => exact ⟨by simp [sqrtX], by simp [sqrtX]⟩

/-- Positive, possibly infinite. -/
def PosX (a : X) : Prop := a = pinf ∨ ∃ r : ℝ, 0 < r ∧ a = fin r

theorem PosX.max_eps (a : X) : PosX (Fl.max a Fl.eps) := by
  have he := RealFl.eps_pos
  change PosX (maxX a (fin Fl.eps))
  cases a with
  | fin r =>
    refine .inr ⟨max r Fl.eps, lt_max_of_lt_right he, ?_⟩
    exact max_fin r Fl.eps
  | nan => exact .inr ⟨_, he, rfl⟩
  | pinf => exact .inl rfl
  | ninf => exact .inr ⟨_, he, rfl⟩

theorem NN.div {a b : X} (ha : NN a) (hb : PosX b) : NN (a / b) := by
  obtain rfl | ⟨r, hr, rfl⟩ := hb
  · cases a <;> refine ⟨?_, ?_⟩ <;> simp_all [HDiv.hDiv, Div.div, X.div]
  · cases a with
    | fin x =>
      rw [div_fin hr.ne']
      exact ⟨by simp, fun y hy => by rw [← X.fin.inj hy]; exact div_nonneg (ha.2 x rfl) hr.le⟩
    | nan => exact ⟨nofun, nofun⟩
    | pinf =>
      have : (pinf / fin r : X) = pinf := by
        change (if r < 0 then ninf else pinf) = pinf
        rw [if_neg hr.not_gt]
      rw [this]
      exact ⟨nofun, nofun⟩
    | ninf => exact absurd rfl ha.1

theorem NN.start (a : X) : NN (Fl.powf (Fl.max a Fl.eps) 0.8) := by
  change NN (powX _ (fin 0.8))
  obtain h | ⟨r, hr, h⟩ := PosX.max_eps a <;> rw [h]
  · unfold powX
    rw [if_neg (by simp; norm_num)]
    simp only
    rw [if_pos (by norm_num)]
    exact ⟨nofun, nofun⟩
  · rw [powX_fin, powR, if_neg (by norm_num), if_pos hr]
    exact ⟨nofun, fun y hy => by rw [← X.fin.inj hy]; exact Real.rpow_nonneg hr.le _⟩

theorem fin_of_le {a d f : X} (ha : NN a) (hd : NN d) (hf : f ≠ pinf) (h : Fl.le (a * d) f = true) : IsFin d := by
  cases d with
  | fin r => exact ⟨r, rfl⟩
  | nan => cases a <;> cases h
  | ninf => exact absurd rfl hd.1
  | pinf =>
    exfalso
    cases a with
    | nan => cases h
    | ninf => exact ha.1 rfl
    | pinf => cases f <;> first | exact hf rfl | cases h
    | fin r =>
      have h0 := ha.2 r rfl
      change leX (infSign r) f = true at h
      unfold infSign at h
      split_ifs at h with h1 h2
      · cases f <;> first | exact hf rfl | cases h
      · linarith
      · cases h

theorem newtonNorm_isFin {s : St X n P} (h : IsFin (newtonNorm s)) (i : _root_.Fin n) :
    IsFin (s.cache.z1 i) ∧ IsFin (s.cache.z2 i) ∧ IsFin (s.cache.z3 i) := by
  have h1 := IsFin.sumLoop (IsFin.of_div (IsFin.of_sqrt h)) i
  rw [IsFin.add_iff, IsFin.add_iff] at h1
  exact ⟨h1.1.1.of_sq.of_div, h1.1.2.of_sq.of_div, h1.2.of_sq.of_div⟩

theorem fin_of_ext {v : Vec n X} (h : AllFin n (extV v)) (i : _root_.Fin n) : IsFin (v i) := by
  have := h i i.2
  rwa [extV, dif_pos i.2] at this

/-- If the Newton increments are finite then so was the iterate. -/
theorem solved_fin {s : St X n P} (hp : Pivots s)
    (h : ∀ i, IsFin ((newtonSolve s).cache.z1 i) ∧ IsFin ((newtonSolve s).cache.z2 i) ∧
      IsFin ((newtonSolve s).cache.z3 i)) (i : _root_.Fin n) :
    IsFin (s.cache.f1 i) ∧ IsFin (s.cache.f2 i) ∧ IsFin (s.cache.z1 i) := by
  have h1 : AllFin n (sol n (extM s.cache.e1) (extV fun i => s.cache.z1 i - s.cache.f1 i * s.cache.fac1) s.cache.ip1) :=
    fun j hj => (h ⟨j, hj⟩).1
  have h2 : AllFinc n (solc n (extM s.cache.e2r) (extM s.cache.e2i)
      (extV fun i => s.cache.z2 i + -(s.cache.f2 i) * s.cache.alphn - -(s.cache.f3 i) * s.cache.betan,
       extV fun i => s.cache.z3 i + -(s.cache.f3 i) * s.cache.alphn + -(s.cache.f2 i) * s.cache.betan) s.cache.ip2) :=
    fun j hj => ⟨(h ⟨j, hj⟩).2.1, (h ⟨j, hj⟩).2.2⟩
  have h3 := fin_of_ext (AllFin.of_sol hp.1 h1) i
  have h4 := AllFinc.of_solc hp.2 h2
  have h5 := fin_of_ext (v := fun i => s.cache.z2 i + -(s.cache.f2 i) * s.cache.alphn - -(s.cache.f3 i) * s.cache.betan)
    (fun j hj => (h4 j hj).1) i
  simp only [IsFin.sub_iff, IsFin.add_iff, IsFin.mul_iff, IsFin.neg_iff] at h3 h5
  exact ⟨h3.2.1, h5.1.2.1, h3.1⟩

theorem newtonLoop_fin {fuel : ℕ} {s s' : St X n P} {d : X} (h : newtonLoop fuel s d = .ok (s', true)) (hp : Pivots s)
    (hf : NN s.cache.faccon) (hd : s.cache.newt ≠ 0 → PosX d) (ho : s.opts.fnewt ≠ pinf) :
    (∀ i, IsFin (s'.cache.z3 i)) ∧ (∃ buf u t, ∀ i, IsFin (s.dudt s.params buf u t i)) ∧
      ∃ a : St X n P, a.cache.scal = s.cache.scal ∧ IsFin (newtonNorm a) := by
  induction fuel generalizing s d with
  | zero => simp [newtonLoop] at h
  | succ f ih =>
    simp only [newtonLoop] at h
    split at h
    · simp at h
    · obtain ⟨a, ha⟩ : ∃ a, newtonSolve (newtonRhs s) = a := ⟨_, rfl⟩
      have hpa : Pivots (newtonRhs s) := hp
      have ea : a.cache.ip1 = s.cache.ip1 ∧ a.cache.ip2 = s.cache.ip2 ∧ a.cache.faccon = s.cache.faccon ∧
          a.opts = s.opts ∧ a.cache.newt = s.cache.newt + 1 ∧ a.dudt = s.dudt ∧ a.params = s.params ∧
          a.cache.scal = s.cache.scal := by
        rw [← ha]; exact ⟨rfl, rfl, rfl, rfl, rfl, rfl, rfl, rfl⟩
      obtain ⟨e1, e2, e3, e4, e5, e6, e7, e8⟩ := ea
      rw [ha] at h
      have hdy : NN (newtonNorm a) := NN.sqrt _
      -- what the check does when it does not abandon the iteration
      have hc : (newtonCheck a (newtonNorm a) d).2 = false →
          NN (newtonCheck a (newtonNorm a) d).1.cache.faccon ∧ ∃ x y z,
            (newtonCheck a (newtonNorm a) d).1 =
              { a with cache := { a.cache with theta := x, thqold := y, faccon := z } } := by
        simp only [newtonCheck]
        split
        · rename_i hn
          have hq : NN (newtonNorm a / d) := hdy.div (hd (by omega))
          have ht : NN (newTheta a (newtonNorm a / d)) := by
            unfold newTheta
            split
            · exact hq
            · exact NN.sqrt _
          generalize newTheta a (newtonNorm a / d) = th at ht
          split
          · rename_i hlt
            split
            · simp
            · intro _
              refine ⟨?_, _, _, _, rfl⟩
              dsimp only
              cases th with
              | nan => cases hlt
              | ninf => exact absurd rfl ht.1
              | pinf => cases hlt
              | fin x =>
                have hx : x < 0.99 := by
                  rw [show (0.99 : X) = fin 0.99 from rfl, lt_fin] at hlt
                  simpa using hlt
                have h0 := ht.2 x rfl
                rw [show (1.0 : X) = fin 1.0 from rfl, sub_fin, div_fin (by norm_num at hx ⊢; linarith)]
                exact ⟨nofun, fun y hy => by
                  rw [← X.fin.inj hy]; exact div_nonneg h0 (by norm_num at hx ⊢; linarith)⟩
          · simp
        · intro _
          exact ⟨by rw [e3]; exact hf, _, _, _, rfl⟩
      generalize newtonCheck a (newtonNorm a) d = r at h hc
      obtain ⟨r1, r2⟩ := r
      cases r2 with
      | true => simp at h
      | false =>
        obtain ⟨hf', x, y, z, hr⟩ := hc rfl
        simp only [Bool.false_eq_true, if_false] at h
        dsimp only at hr hf'
        split at h
        · rename_i hle
          have hs' : s' = newtonUpdate r1 := by simp only [Res.ok.injEq, Prod.mk.injEq] at h; exact h.1.symm
          have ho' : (newtonUpdate r1).opts.fnewt ≠ pinf := by
            change r1.opts.fnewt ≠ pinf
            rw [hr]; dsimp only; rw [e4]; exact ho
          have hfin := fin_of_le (show NN (newtonUpdate r1).cache.faccon from hf') hdy ho' hle
          have hz := newtonNorm_isFin hfin
          rw [← ha] at hz
          have hff := solved_fin hpa hz
          have hzi := hz
          rw [ha] at hzi
          have ef : a.cache.f1 = (newtonRhs s).cache.f1 ∧ a.cache.f2 = (newtonRhs s).cache.f2 := by
            rw [← ha]; exact ⟨rfl, rfl⟩
          refine ⟨fun i => ?_, ⟨s.cache.z1, fun i => s.u i + s.cache.z1 i, s.t + C1 * s.dt, fun i => ?_⟩, a, e8, hfin⟩
          · rw [hs', hr]
            simp only [newtonUpdate]
            rw [ef.1, ef.2]
            simp only [IsFin.add_iff, IsFin.mul_iff]
            exact ⟨⟨⟨_, rfl⟩, (hff i).1, (hzi i).1⟩, (hff i).2.1, (hzi i).2.1⟩
          · have := (hff i).2.2
            simp only [newtonRhs, IsFin.add_iff, IsFin.mul_iff] at this
            exact this.1.1.2
        · have := ih h ?_ hf' (fun _ => PosX.max_eps _) ?_
          · have q1 : (newtonUpdate r1).dudt = s.dudt := by
              change r1.dudt = _
              rw [hr]; exact e6
            have q2 : (newtonUpdate r1).params = s.params := by
              change r1.params = _
              rw [hr]; exact e7
            have q3 : (newtonUpdate r1).cache.scal = s.cache.scal := by
              change r1.cache.scal = _
              rw [hr]; exact e8
            rwa [q1, q2, q3] at this
          · rw [hr]; exact ⟨by change IpOk n a.cache.ip1; rw [e1]; exact hp.1, by change IpOk n a.cache.ip2; rw [e2]; exact hp.2⟩
          · change r1.opts.fnewt ≠ pinf
            rw [hr]; dsimp only; rw [e4]; exact ho

theorem newton_fin {s s' : St X n P} (h : newton s = .ok (s', true)) (hp : Pivots s) (ho : s.opts.fnewt ≠ pinf) :
    (∀ i, IsFin (s'.cache.z3 i)) ∧ (∃ buf u t, ∀ i, IsFin (s.dudt s.params buf u t i)) ∧
      ∃ a : St X n P, a.cache.scal = s.cache.scal ∧ IsFin (newtonNorm a) := by
  rw [newton_eq] at h
  have hi := Frame.newtonInit s
  rw [← hi.dudt, ← hi.params, ← (scal_closed s.cache.scal).init rfl]
  refine newtonLoop_fin h (Pivots.closed.init hp) ?_ ?_ (by rw [hi.opts]; exact ho)
  · have : (newtonInit s).cache.faccon = Fl.powf (Fl.max s.cache.faccon Fl.eps) 0.8 := by
      simp only [newtonInit, prepare_newton]; split <;> rfl
    rw [this]; exact NN.start _
  · intro h
    exact absurd (by simp only [newtonInit]) h

theorem newtonNorm_nan {s : St X n P} (h : ∃ i, s.cache.scal i = nan) : newtonNorm s = nan := by
  obtain ⟨i, hi⟩ := h
  have h1 : ∀ (l : List (_root_.Fin n)) (f : _root_.Fin n → X) (a : X), (a = nan ∨ ∃ i ∈ l, f i = nan) →
      l.foldl (fun acc i => acc + f i) a = nan := by
    intro l f
    induction l with
    | nil => rintro a (h | ⟨i, hi, -⟩); exacts [h, absurd hi (by simp)]
    | cons x l ih =>
      rintro a (h | ⟨i, hi, h⟩)
      · exact ih _ (.inl (by rw [h]; rfl))
      · rcases List.mem_cons.1 hi with rfl | hi
        · exact ih _ (.inl (by change a + f i = nan; rw [h]; cases a <;> rfl))
        · exact ih _ (.inr ⟨i, hi, h⟩)
  have h2 : sumLoop n (0.0 : X) (fun i => Fl.powi (s.cache.z1 i / s.cache.scal i) 2 + Fl.powi (s.cache.z2 i / s.cache.scal i) 2
      + Fl.powi (s.cache.z3 i / s.cache.scal i) 2) = nan := by
    refine h1 _ _ _ (.inr ⟨i, List.mem_finRange i, ?_⟩)
    rw [hi]
    have hd : ∀ x : X, Fl.powi (x / nan) 2 = nan := by
      intro x
      have : x / nan = nan := by cases x <;> rfl
      rw [this]
      change powX nan (fin ((2 : ℤ) : ℝ)) = nan
      simp [powX]
    rw [hd, hd, hd]; rfl
  unfold newtonNorm
  simp only
  rw [h2]; rfl

/-- With a NaN in the scale the Newton iteration never succeeds. -/
theorem newtonLoop_nan {fuel : ℕ} {s s' : St X n P} {d : X} (h : ∃ i, s.cache.scal i = nan) :
    newtonLoop fuel s d ≠ .ok (s', true) := by
  intro hl
  induction fuel generalizing s d with
  | zero => simp [newtonLoop] at hl
  | succ f ih =>
    simp only [newtonLoop] at hl
    split at hl
    · simp at hl
    · split at hl
      · simp at hl
      · have hsc : (newtonUpdate (newtonCheck (newtonSolve (newtonRhs s)) (newtonNorm (newtonSolve (newtonRhs s))) d).1).cache.scal
            = s.cache.scal :=
          (scal_closed s.cache.scal).upd ((scal_closed s.cache.scal).newtonCheck _ _
            (show (newtonSolve (newtonRhs s)).cache.scal = s.cache.scal from rfl))
        rw [newtonNorm_nan (s := newtonSolve (newtonRhs s)) h] at hl hsc
        split at hl
        · rename_i hle
          have : ∀ x y : X, Fl.le (x * nan) y = false := by intro x y; cases x <;> cases y <;> rfl
          rw [this] at hle
          cases hle
        · exact ih (by rw [hsc]; exact h) hl

theorem newton_nan {s s' : St X n P} (h : ∃ i, s.cache.scal i = nan) : newton s ≠ .ok (s', true) := by
  rw [newton_eq]
  exact newtonLoop_nan (by rw [(scal_closed s.cache.scal).init rfl]; exact h)

end

end Radau
end Cyphus
