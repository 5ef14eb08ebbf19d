import Verif.Proofs.Units
import Verif.DP5.Model
/-!
# Multiplying a `DormandPrince5` integrator by a number

Every function of the model commutes with the change `sc` of the units of the state.
-/

namespace Cyphus
set_option autoImplicit false
set_option linter.unusedSectionVars false

/-! ### Functions commuting with a change `T` of states with the property `U` -/

section
variable {σ : Type}

/-- `h` keeps `U` and commutes with `T` there. -/
structure Cm (U : σ → Prop) (T : σ → σ) (h : σ → σ) : Prop where
  kept : ∀ s, U s → U (h s)
  comm : ∀ s, U s → h (T s) = T (h s)

/-- The same for a function which may fail. -/
structure CmR (U : σ → Prop) (T : σ → σ) (h : σ → Res σ) : Prop where
  kept : ∀ s s', h s = .ok s' → U s → U s'
  comm : ∀ s s', h s = .ok s' → U s → h (T s) = .ok (T s')

variable {U : σ → Prop} {T : σ → σ}

theorem Cm.id : Cm U T (fun s => s) := ⟨fun _ h => h, fun _ _ => rfl⟩

theorem Cm.comp {a b : σ → σ} (ha : Cm U T a) (hb : Cm U T b) : Cm U T (fun s => b (a s)) :=
  ⟨fun s h => hb.kept _ (ha.kept s h), fun s h => by rw [ha.comm s h, hb.comm _ (ha.kept s h)]⟩

theorem Cm.ite {p : σ → Prop} [DecidablePred p] {a b : σ → σ} (hp : ∀ s, p (T s) ↔ p s) (ha : Cm U T a) (hb : Cm U T b) :
    Cm U T (fun s => if p s then a s else b s) where
  kept s h := by
    by_cases e : p s
    · simp only [if_pos e]; exact ha.kept s h
    · simp only [if_neg e]; exact hb.kept s h
  comm s h := by
    by_cases e : p s
    · simp only [if_pos e, if_pos ((hp s).2 e)]; exact ha.comm s h
    · simp only [if_neg e, if_neg (fun x => e ((hp s).1 x))]; exact hb.comm s h

theorem Cm.val {α : Type} {v : σ → α} {a : α → σ → σ} (hv : ∀ s, v (T s) = v s) (ha : ∀ x, Cm U T (a x)) :
    Cm U T (fun s => a (v s) s) :=
  ⟨fun s h => (ha _).kept s h, fun s h => by simp only [hv]; exact (ha _).comm s h⟩

theorem CmR.val {α : Type} {v : σ → α} {a : α → σ → Res σ} (hv : ∀ s, v (T s) = v s) (ha : ∀ x, CmR U T (a x)) :
    CmR U T (fun s => a (v s) s) :=
  ⟨fun s s' e h => (ha _).kept s s' e h, fun s s' e h => by simp only [hv]; exact (ha _).comm s s' e h⟩

theorem Cm.ok {a : σ → σ} (ha : Cm U T a) : CmR U T (fun s => .ok (a s)) :=
  ⟨fun s s' e h => by cases e; exact ha.kept s h, fun s s' e h => by cases e; simp only [ha.comm s h]⟩

theorem CmR.ite {p : σ → Prop} [DecidablePred p] {a b : σ → Res σ} (hp : ∀ s, p (T s) ↔ p s) (ha : CmR U T a) (hb : CmR U T b) :
    CmR U T (fun s => if p s then a s else b s) where
  kept s s' h := by
    by_cases e : p s
    · simp only [if_pos e] at h; exact ha.kept s s' h
    · simp only [if_neg e] at h; exact hb.kept s s' h
  comm s s' h := by
    by_cases e : p s
    · simp only [if_pos e, if_pos ((hp s).2 e)] at h ⊢; exact ha.comm s s' h
    · simp only [if_neg e, if_neg (fun x => e ((hp s).1 x))] at h ⊢; exact hb.comm s s' h

theorem Cm.thenR {a : σ → σ} {b : σ → Res σ} (ha : Cm U T a) (hb : CmR U T b) : CmR U T (fun s => b (a s)) :=
  ⟨fun s s' e h => hb.kept _ _ e (ha.kept s h), fun s s' e h => by simp only [ha.comm s h]; exact hb.comm _ _ e (ha.kept s h)⟩

theorem CmR.bind {a b : σ → Res σ} (ha : CmR U T a) (hb : CmR U T b) : CmR U T (fun s => (a s).bind b) where
  kept s s' e h := by
    cases e1 : a s with
    | ok r => simp only [e1, Res.bind] at e; exact hb.kept _ _ e (ha.kept _ _ e1 h)
    | panic => simp only [e1, Res.bind] at e; cases e
    | timeout => simp only [e1, Res.bind] at e; cases e
  comm s s' e h := by
    cases e1 : a s with
    | ok r =>
      simp only [e1, Res.bind] at e
      simp only [ha.comm _ _ e1 h, Res.bind]
      exact hb.comm _ _ e (ha.kept _ _ e1 h)
    | panic => simp only [e1, Res.bind] at e; cases e
    | timeout => simp only [e1, Res.bind] at e; cases e

theorem CmR.timeout : CmR U T (fun _ => .timeout) := ⟨(fun _ _ e => by cases e), (fun _ _ e => by cases e)⟩
theorem CmR.panic : CmR U T (fun _ => .panic) := ⟨(fun _ _ e => by cases e), (fun _ _ e => by cases e)⟩

end

section
variable {F : Type} {n : Nat} {P : Type}
variable [Add F] [Sub F] [Mul F] [Div F] [Neg F] [OfScientific F] [Fl F]

/-- Multiplication by `c`, of absolute value `k` and square `m`, commutes with the operations of `DormandPrince5`. -/
structure Scaling2 (c k m : F) : Prop extends Scaling c k where
  max : ∀ x y, Fl.max (k * x) (k * y) = k * Fl.max x y
  quot : ∀ x y, c * x / (k * y) * (c * x / (k * y)) = x / y * (x / y)
  sqr : ∀ x, c * x * (c * x) = m * (x * x)
  mzero : m * 0.0 = 0.0
  madd : ∀ x y, m * x + m * y = m * (x + y)
  mpos : ∀ x, Fl.gt (m * x) 0.0 = Fl.gt x 0.0
  mquot : ∀ x y, m * x / (m * y) = x / y

theorem Scaling2.sum {c k m : F} (S : Scaling2 c k m) (f : Fin n → F) : sumLoop n 0.0 (fun i => m * f i) = m * sumLoop n 0.0 f := by
  have key : ∀ (l : List (Fin n)) (a : F), l.foldl (fun acc i => acc + m * f i) (m * a) = m * l.foldl (fun acc i => acc + f i) a := by
    intro l
    induction l with
    | nil => exact fun _ => rfl
    | cons i l ih => intro a; rw [List.foldl_cons, List.foldl_cons, S.madd, ih]
  unfold sumLoop
  have h := key (List.finRange n) 0.0
  rw [S.mzero] at h
  exact h

namespace DP5

/-- A change of units: the factor, its absolute value, its square, the user functions. -/
structure UnitPar (F : Type) (n : Nat) (P : Type) where
  c : F
  k : F
  m : F
  g : Rhs F n P
  j : Option (JacFn F n P)

/-- The integrator in other units, with the user functions `g` and `j`. -/
def sc (q : UnitPar F n P) (s : St F n P) : St F n P :=
  { s with
    dudt := q.g
    dfdu := q.j
    u := mulV q.c s.u
    uprev := mulV q.c s.uprev
    opts := { s.opts with abstol := q.k * s.opts.abstol }
    sol := { s.sol with us := s.sol.us.map (mulV q.c) }
    trace := s.trace.map (Call.mulU q.c)
    cache := { s.cache with
      k2 := mulV q.c s.cache.k2
      k3 := mulV q.c s.cache.k3
      k4 := mulV q.c s.cache.k4
      k5 := mulV q.c s.cache.k5
      k6 := mulV q.c s.cache.k6
      rcont1 := mulV q.c s.cache.rcont1
      rcont2 := mulV q.c s.cache.rcont2
      rcont3 := mulV q.c s.cache.rcont3
      rcont4 := mulV q.c s.cache.rcont4
      rcont5 := mulV q.c s.cache.rcont5
      unew := mulV q.c s.cache.unew
      du := mulV q.c s.cache.du
      dunew := mulV q.c s.cache.dunew
      uerr := mulV q.c s.cache.uerr
      ustiff := mulV q.c s.cache.ustiff } }

/-- `q` contains the right-hand side of `s` in other units. -/
def Units (q : UnitPar F n P) (s : St F n P) : Prop :=
  ∀ buf u t, q.g s.params (mulV q.c buf) (mulV q.c u) t = mulV q.c (s.dudt s.params buf u t)

variable {q : UnitPar F n P}

theorem pure_cm {h : St F n P → St F n P} (h1 : ∀ s, (h s).dudt = s.dudt) (h2 : ∀ s, (h s).params = s.params)
    (h3 : ∀ s, h (sc q s) = sc q (h s)) : Cm (Units q) (sc q) h :=
  ⟨fun s H => by unfold Units at H ⊢; rw [h1, h2]; exact H, fun s _ => h3 s⟩

theorem compute_stages_cm (S : Scaling q.c q.k) : Cm (Units q) (sc q) (compute_stages (F := F) (n := n) (P := P)) where
  kept s H := H
  comm s H := by
    have e1 (u x : Vec n F) (a : F) : (fun i => mulV q.c u i + a * mulV q.c x i) = mulV q.c fun i => u i + a * x i :=
      funext fun i => by simp only [mulV, S.mul, S.add]
    have e2 (u x y : Vec n F) (h a b : F) : (fun i => mulV q.c u i + h * (a * mulV q.c x i + b * mulV q.c y i))
        = mulV q.c fun i => u i + h * (a * x i + b * y i) := funext fun i => by simp only [mulV, S.mul, S.add]
    have e3 (u x y z : Vec n F) (h a b d : F) : (fun i => mulV q.c u i + h * (a * mulV q.c x i + b * mulV q.c y i + d * mulV q.c z i))
        = mulV q.c fun i => u i + h * (a * x i + b * y i + d * z i) := funext fun i => by simp only [mulV, S.mul, S.add]
    have e4 (u x y z w : Vec n F) (h a b d e : F) :
        (fun i => mulV q.c u i + h * (a * mulV q.c x i + b * mulV q.c y i + d * mulV q.c z i + e * mulV q.c w i))
        = mulV q.c fun i => u i + h * (a * x i + b * y i + d * z i + e * w i) := funext fun i => by simp only [mulV, S.mul, S.add]
    have e5 (u x y z w v : Vec n F) (h a b d e f : F) :
        (fun i => mulV q.c u i + h * (a * mulV q.c x i + b * mulV q.c y i + d * mulV q.c z i + e * mulV q.c w i + f * mulV q.c v i))
        = mulV q.c fun i => u i + h * (a * x i + b * y i + d * z i + e * w i + f * v i) := funext fun i => by simp only [mulV, S.mul, S.add]
    have e6 (x y z w v u : Vec n F) (h a b d e f g : F) :
        (fun i => h * (a * mulV q.c x i + b * mulV q.c y i + d * mulV q.c z i + e * mulV q.c w i + f * mulV q.c v i + g * mulV q.c u i))
        = mulV q.c fun i => h * (a * x i + b * y i + d * z i + e * w i + f * v i + g * u i) := funext fun i => by simp only [mulV, S.mul, S.add]
    have H' : ∀ buf u t, q.g s.params (mulV q.c buf) (mulV q.c u) t = mulV q.c (s.dudt s.params buf u t) := H
    simp only [compute_stages, sc, e1, H', e2, e3, e4, e5, e6, List.map_append]
    rfl

theorem error_sc (S : Scaling2 q.c q.k q.m) (s : St F n P) : error (sc q s) = error s := by
  simp only [error, sc, mulV, S.abs, S.max, S.kmul, S.kadd, S.quot]

theorem stiffness_cm (S : Scaling2 q.c q.k q.m) : Cm (Units q) (sc q) (stiffness (F := F) (n := n) (P := P)) := by
  refine pure_cm (fun _ => rfl) (fun _ => rfl) fun s => ?_
  simp only [stiffness, sc, mulV, S.sub, S.sqr, S.sum, S.mpos, S.mquot]
  split_ifs <;> rfl

theorem prepare_dense_cm (S : Scaling q.c q.k) : Cm (Units q) (sc q) (prepare_dense (F := F) (n := n) (P := P)) := by
  refine pure_cm (fun _ => rfl) (fun _ => rfl) fun s => ?_
  have e1 (x y : Vec n F) : (fun i => mulV q.c x i - mulV q.c y i) = mulV q.c fun i => x i - y i := funext fun i => S.sub _ _
  have e2 (x y z : Vec n F) (h : F) : (fun i => h * mulV q.c x i - (mulV q.c y i - mulV q.c z i)) = mulV q.c fun i => h * x i - (y i - z i) :=
    funext fun i => by simp only [mulV, S.sub, S.mul]
  have e3 (x y z w : Vec n F) (h : F) : (fun i => mulV q.c x i - mulV q.c y i - h * mulV q.c z i - (h * mulV q.c w i - (mulV q.c x i - mulV q.c y i)))
      = mulV q.c fun i => x i - y i - h * z i - (h * w i - (x i - y i)) :=
    funext fun i => by simp only [mulV, S.sub, S.mul]
  have e6 (x y z w v u : Vec n F) (h a b d e f g : F) :
      (fun i => h * (a * mulV q.c x i + b * mulV q.c y i + d * mulV q.c z i + e * mulV q.c w i + f * mulV q.c v i + g * mulV q.c u i))
      = mulV q.c fun i => h * (a * x i + b * y i + d * z i + e * w i + f * v i + g * u i) := funext fun i => by simp only [mulV, S.mul, S.add]
  simp only [prepare_dense, sc, e1, e2, e3, e6]

theorem acceptStep_cm (S : Scaling2 q.c q.k q.m) (e d : F) : Cm (Units q) (sc q) (acceptStep (n := n) (P := P) e d) := by
  have h1 : Cm (Units q) (sc q) (fun s : St F n P => { s with
      cache := { s.cache with facold := Fl.max e 1e-4 }
      stats := { s.stats with accepts := s.stats.accepts + 1 } }) := pure_cm (fun _ => rfl) (fun _ => rfl) fun _ => rfl
  have h2 : Cm (Units q) (sc q) (fun s : St F n P => if s.stats.accepts % s.opts.max_stiff = 0 ∨ s.cache.n_stiff > 0 then stiffness s else s) :=
    Cm.ite (fun _ => Iff.rfl) (stiffness_cm S) Cm.id
  have h3 : Cm (Units q) (sc q) (fun s : St F n P => if s.opts.dense then prepare_dense s else s) :=
    Cm.ite (fun _ => Iff.rfl) (prepare_dense_cm S.toScaling) Cm.id
  have h4 : Cm (Units q) (sc q) (fun s : St F n P =>
      let s := { s with
        cache := { s.cache with du := s.cache.dunew }
        uprev := s.u
        u := s.cache.unew
        tprev := s.t
        t := s.t + s.dt }
      let dtnew := if Fl.gt (Fl.abs d) s.opts.dtmax then s.tdir * s.opts.dtmax else d
      let dtnew := if s.cache.reject then s.tdir * Fl.min (Fl.abs dtnew) (Fl.abs s.dt) else dtnew
      { s with cache := { s.cache with reject := false }, dtprev := s.dt, dt := dtnew }) := pure_cm (fun _ => rfl) (fun _ => rfl) fun _ => rfl
  exact ((h1.comp h2).comp h3).comp h4

theorem rejectStep_cm (e : F) : Cm (Units q) (sc q) (rejectStep (n := n) (P := P) e) := pure_cm (fun _ => rfl) (fun _ => rfl) fun _ => rfl

theorem prepare_next_step_cm (S : Scaling2 q.c q.k q.m) (e : F) : CmR (Units q) (sc q) (prepare_next_step (n := n) (P := P) e) := by
  unfold prepare_next_step
  refine CmR.ite (p := fun _ => Fl.le e 1.0 = true) (fun _ => Iff.rfl) ?_ (rejectStep_cm e).ok
  refine CmR.ite (p := fun s : St F n P => s.opts.max_stiff = 0) (fun _ => Iff.rfl) CmR.panic ?_
  exact (Cm.val (T := sc q) (v := fun s : St F n P => s.dt / stepFac s.opts s.cache.facold e) (fun _ => rfl) (acceptStep_cm S e)).ok

theorem attempt_cm (S : Scaling2 q.c q.k q.m) : CmR (Units q) (sc q) (attempt (F := F) (n := n) (P := P)) :=
  (compute_stages_cm S.toScaling).thenR
    (CmR.val (v := fun s : St F n P => error s) (a := prepare_next_step) (error_sc S) (prepare_next_step_cm S))

theorem checkDtMin_cm : Cm (Units q) (sc q) (checkDtMin (F := F) (n := n) (P := P)) :=
  Cm.ite (fun _ => Iff.rfl) (pure_cm (fun _ => rfl) (fun _ => rfl) fun _ => rfl) Cm.id

theorem attemptLoop_cm (S : Scaling2 q.c q.k q.m) (fuel : Nat) : CmR (Units q) (sc q) (attemptLoop (F := F) (n := n) (P := P) fuel) := by
  induction fuel with
  | zero => exact CmR.timeout
  | succ fuel ih =>
    refine (attempt_cm S).bind (b := fun s : St F n P => if !s.cache.reject then .ok s else attemptLoop fuel (checkDtMin s)) ?_
    exact CmR.ite (p := fun s : St F n P => (!s.cache.reject) = true) (fun _ => Iff.rfl) Cm.id.ok (checkDtMin_cm.thenR ih)

theorem clampLast_cm : Cm (Units q) (sc q) (clampLast (F := F) (n := n) (P := P)) :=
  Cm.ite (fun _ => Iff.rfl) (pure_cm (fun _ => rfl) (fun _ => rfl) fun _ => rfl) Cm.id

theorem finishStep_cm : Cm (Units q) (sc q) (finishStep (F := F) (n := n) (P := P)) := by
  have h0 (r : RetCode) : Cm (Units q) (sc q) (fun s : St F n P => { s with sol := { s.sol with retcode := r } }) :=
    pure_cm (fun _ => rfl) (fun _ => rfl) fun _ => rfl
  have h1 : Cm (Units q) (sc q) (fun s : St F n P => { s with stats := { s.stats with steps := s.stats.steps + 1 }, sol := s.sol.push s.t s.u }) :=
    pure_cm (fun _ => rfl) (fun _ => rfl) fun s => by simp only [sc, Solution.push, List.map_append]; rfl
  have h2 : Cm (Units q) (sc q) (fun s : St F n P => if s.stats.steps > s.opts.max_steps then { s with sol := { s.sol with retcode := .MaxIters } } else s) :=
    Cm.ite (fun _ => Iff.rfl) (h0 _) Cm.id
  have h3 : Cm (Units q) (sc q) (fun s : St F n P => if s.cache.last then { s with sol := { s.sol with retcode := .Success } } else s) :=
    Cm.ite (fun _ => Iff.rfl) (h0 _) Cm.id
  exact (h1.comp h2).comp h3

theorem step_cm (S : Scaling2 q.c q.k q.m) (fuel : Nat) : CmR (Units q) (sc q) (step (F := F) (n := n) (P := P) fuel) :=
  CmR.bind (clampLast_cm.thenR (attemptLoop_cm S fuel)) finishStep_cm.ok

theorem dense_output_sc (S : Scaling q.c q.k) (s : St F n P) (t dt : F) : dense_output (sc q s) t dt = mulV q.c (dense_output s t dt) := by
  funext i
  simp only [dense_output, sc, mulV, S.mul, S.add]

/-- `build()` in other units. -/
theorem build_sc [FlInf F] (S : Scaling q.c q.k) {b : Builder F n P} {s0 : St F n P}
    (hg : ∀ buf u t, q.g b.params (mulV q.c buf) (mulV q.c u) t = mulV q.c (b.dudt b.params buf u t)) (hb : b.build alg = .ok s0) :
    Units q s0 ∧ Builder.build alg { b with
      dudt := q.g, dfdu := q.j, u := mulV q.c b.u, opts := { b.opts with abstol := q.k * b.opts.abstol } } = .ok (sc q s0) := by
  have e := (Res.ok.inj hb).symm
  subst e
  refine ⟨hg, ?_⟩
  have z : mulV q.c (fun _ => 0.0 : Vec n F) = fun _ => 0.0 := funext fun _ => S.zero
  have hg' := hg (fun _ => 0.0) b.u b.t
  rw [z] at hg'
  simp only [Builder.build, new_cache, Res.bind, sc, hg', z]
  rfl

end DP5
end
end Cyphus
