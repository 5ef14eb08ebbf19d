import Verif.Proofs.Run
import Verif.Spec.Builder
import Verif.Rodas.Model
import Verif.Arith.X
/-!
# C01, C02, C55: the builder
-/

namespace Cyphus
open Spec
variable {F : Type} {n : Nat} {P : Type}
  [Add F] [Sub F] [Mul F] [Div F] [Neg F] [OfScientific F] [Fl F] [FlInf F]

omit [Add F] [Sub F] [Mul F] [Div F] [Neg F] [OfScientific F] [Fl F] [FlInf F] in
theorem sets_last {β : Type} (g : Builder F n P → β) (pick : Setter F n P → Option β)
    (h : ∀ b x, g (b.set x) = (pick x).getD (g b)) (calls : List (Setter F n P)) (b : Builder F n P) :
    g (b.sets calls) = (lastGiven pick calls).getD (g b) := by
  induction calls generalizing b with
  | nil => rfl
  | cons x l ih =>
    have : g ((b.set x).sets l) = _ := ih (b.set x)
    simp only [Builder.sets, List.foldl_cons] at this ⊢
    rw [this, h]
    simp only [lastGiven, List.reverse_cons, List.findSome?_append]
    cases List.findSome? pick l.reverse with
    | some v => rfl
    | none => cases hp : pick x <;> simp [hp]

omit [Add F] [Sub F] [Mul F] [Div F] [Neg F] [OfScientific F] [Fl F] [FlInf F] in
theorem sets_last_opt {β : Type} (g : Builder F n P → Option β) (pick : Setter F n P → Option β)
    (h : ∀ b x, g (b.set x) = (pick x).orElse fun _ => g b) (calls : List (Setter F n P))
    (b : Builder F n P) : g (b.sets calls) = (lastGiven pick calls).orElse fun _ => g b := by
  induction calls generalizing b with
  | nil => rfl
  | cons x l ih =>
    have : g ((b.set x).sets l) = _ := ih (b.set x)
    simp only [Builder.sets, List.foldl_cons] at this ⊢
    rw [this, h]
    simp only [lastGiven, List.reverse_cons, List.findSome?_append]
    cases List.findSome? pick l.reverse with
    | some v => rfl
    | none => cases hp : pick x <;> simp [hp]

omit [Add F] [Sub F] [Mul F] [Div F] [Neg F] [OfScientific F] [Fl F] [FlInf F] in
theorem sets_const {β : Type} (g : Builder F n P → β) (h : ∀ b x, g (b.set x) = g b)
    (calls : List (Setter F n P)) (b : Builder F n P) : g (b.sets calls) = g b := by
  induction calls generalizing b with
  | nil => rfl
  | cons x l ih =>
    have : g ((b.set x).sets l) = _ := ih (b.set x)
    simp only [Builder.sets, List.foldl_cons] at this ⊢
    rw [this, h]

/-- **C01** (DormandPrince5). After any chain of builder calls, `build()` succeeds and every option of the
integrator is the last value given to its setter, or the documented default of the algorithm. -/
theorem C01_builder_last_write_wins_dp5 (dudt : Rhs F n P) (u0 : Vec n F) (tspan : F × F) (params : P)
    (calls : List (Setter F n P)) :
    ∃ s, ((Builder.default DP5.alg dudt u0 tspan params).sets calls).build DP5.alg = .ok s ∧
      s.opts.reltol = (lastGiven (fun | .reltol v => some v | _ => none) calls).getD 1e-3 ∧
      s.opts.abstol = (lastGiven (fun | .abstol v => some v | _ => none) calls).getD 1e-7 ∧
      s.opts.dense = (lastGiven (fun | .dense v => some v | _ => none) calls).getD false ∧
      s.opts.dtstart = (lastGiven (fun | .dtstart v => some v | _ => none) calls).getD 1e-6 ∧
      s.opts.dtmax = (lastGiven (fun | .dtmax v => some v | _ => none) calls).getD FlInf.inf ∧
      s.opts.max_steps = (lastGiven (fun | .max_steps v => some v | _ => none) calls).getD 100000 ∧
      s.opts.max_newt_iter = (lastGiven (fun | .max_newt_iter v => some v | _ => none) calls).getD 7 ∧
      s.opts.max_stiff = (lastGiven (fun | .max_stiff v => some v | _ => none) calls).getD 1000 ∧
      s.opts.modern_pred = (lastGiven (fun | .modern_pred v => some v | _ => none) calls).getD true ∧
      s.opts.safe = (lastGiven (fun | .safe v => some v | _ => none) calls).getD 0.9 ∧
      s.opts.facr = (lastGiven (fun | .facr v => some v | _ => none) calls).getD 10.0 ∧
      s.opts.facl = (lastGiven (fun | .facl v => some v | _ => none) calls).getD 0.2 ∧
      s.opts.quot1 = (lastGiven (fun | .quot1 v => some v | _ => none) calls).getD 0.0 ∧
      s.opts.quot2 = (lastGiven (fun | .quot2 v => some v | _ => none) calls).getD 0.0 ∧
      s.opts.beta = (lastGiven (fun | .beta v => some v | _ => none) calls).getD 0.04 ∧
      s.opts.fnewt = (lastGiven (fun | .fnewt v => some v | _ => none) calls).getD 0.0 ∧
      s.opts.use_ext_col = (lastGiven (fun | .use_ext_col v => some v | _ => none) calls).getD true ∧
      s.opts.hess = (lastGiven (fun | .hess v => some v | _ => none) calls).getD false ∧
      s.dfdu = (lastGiven (fun | .dfdu j => some j | _ => none) calls) ∧
      s.dfdt = (lastGiven (fun | .dfdt j => some j | _ => none) calls) := by
  refine ⟨_, rfl, ?_, ?_, ?_, ?_, ?_, ?_, ?_, ?_, ?_, ?_, ?_, ?_, ?_, ?_, ?_, ?_, ?_, ?_, ?_, ?_⟩
  · exact sets_last (fun b => b.opts.reltol) _ (by rintro b (_ | _) <;> rfl) _ _
  · exact sets_last (fun b => b.opts.abstol) _ (by rintro b (_ | _) <;> rfl) _ _
  · exact sets_last (fun b => b.opts.dense) _ (by rintro b (_ | _) <;> rfl) _ _
  · exact sets_last (fun b => b.opts.dtstart) _ (by rintro b (_ | _) <;> rfl) _ _
  · exact sets_last (fun b => b.opts.dtmax) _ (by rintro b (_ | _) <;> rfl) _ _
  · exact sets_last (fun b => b.opts.max_steps) _ (by rintro b (_ | _) <;> rfl) _ _
  · exact sets_last (fun b => b.opts.max_newt_iter) _ (by rintro b (_ | _) <;> rfl) _ _
  · exact sets_last (fun b => b.opts.max_stiff) _ (by rintro b (_ | _) <;> rfl) _ _
  · exact sets_last (fun b => b.opts.modern_pred) _ (by rintro b (_ | _) <;> rfl) _ _
  · exact sets_last (fun b => b.opts.safe) _ (by rintro b (_ | _) <;> rfl) _ _
  · exact sets_last (fun b => b.opts.facr) _ (by rintro b (_ | _) <;> rfl) _ _
  · exact sets_last (fun b => b.opts.facl) _ (by rintro b (_ | _) <;> rfl) _ _
  · exact sets_last (fun b => b.opts.quot1) _ (by rintro b (_ | _) <;> rfl) _ _
  · exact sets_last (fun b => b.opts.quot2) _ (by rintro b (_ | _) <;> rfl) _ _
  · exact sets_last (fun b => b.opts.beta) _ (by rintro b (_ | _) <;> rfl) _ _
  · exact sets_last (fun b => b.opts.fnewt) _ (by rintro b (_ | _) <;> rfl) _ _
  · exact sets_last (fun b => b.opts.use_ext_col) _ (by rintro b (_ | _) <;> rfl) _ _
  · exact sets_last (fun b => b.opts.hess) _ (by rintro b (_ | _) <;> rfl) _ _
  · refine (sets_last_opt (fun b => b.dfdu) (fun | .dfdu j => some j | _ => none)
      (by rintro b (_ | _) <;> rfl) calls _).trans ?_
    cases lastGiven _ calls <;> rfl
  · refine (sets_last_opt (fun b => b.dfdt) (fun | .dfdt j => some j | _ => none)
      (by rintro b (_ | _) <;> rfl) calls _).trans ?_
    cases lastGiven _ calls <;> rfl

/-- **C01** (Radau5). The same, except that `build()` replaces `reltol`, `abstol` and a non-positive
`fnewt` by values computed from the ones given. -/
theorem C01_builder_last_write_wins_radau (dudt : Rhs F n P) (u0 : Vec n F) (tspan : F × F) (params : P)
    (calls : List (Setter F n P)) :
    ∃ s, ((Builder.default Radau.alg dudt u0 tspan params).sets calls).build Radau.alg = .ok s ∧
      s.opts.dense = (lastGiven (fun | .dense v => some v | _ => none) calls).getD false ∧
      s.opts.dtstart = (lastGiven (fun | .dtstart v => some v | _ => none) calls).getD 1e-6 ∧
      s.opts.dtmax = (lastGiven (fun | .dtmax v => some v | _ => none) calls).getD FlInf.inf ∧
      s.opts.max_steps = (lastGiven (fun | .max_steps v => some v | _ => none) calls).getD 100000 ∧
      s.opts.max_newt_iter = (lastGiven (fun | .max_newt_iter v => some v | _ => none) calls).getD 7 ∧
      s.opts.max_stiff = (lastGiven (fun | .max_stiff v => some v | _ => none) calls).getD 1000 ∧
      s.opts.modern_pred = (lastGiven (fun | .modern_pred v => some v | _ => none) calls).getD true ∧
      s.opts.safe = (lastGiven (fun | .safe v => some v | _ => none) calls).getD 0.9 ∧
      s.opts.facr = (lastGiven (fun | .facr v => some v | _ => none) calls).getD (1.0 / 8.0) ∧
      s.opts.facl = (lastGiven (fun | .facl v => some v | _ => none) calls).getD 5.0 ∧
      s.opts.quot1 = (lastGiven (fun | .quot1 v => some v | _ => none) calls).getD 1.0 ∧
      s.opts.quot2 = (lastGiven (fun | .quot2 v => some v | _ => none) calls).getD 1.2 ∧
      s.opts.beta = (lastGiven (fun | .beta v => some v | _ => none) calls).getD 0.0 ∧
      s.opts.use_ext_col = (lastGiven (fun | .use_ext_col v => some v | _ => none) calls).getD true ∧
      s.opts.hess = (lastGiven (fun | .hess v => some v | _ => none) calls).getD false ∧
      s.opts.theta = 0.001 ∧
      s.dfdu = (lastGiven (fun | .dfdu j => some j | _ => none) calls) ∧
      s.dfdt = (lastGiven (fun | .dfdt j => some j | _ => none) calls) ∧
      (let reltol := (lastGiven (fun | .reltol v => some v | _ => none) calls).getD 1e-3
       let abstol := (lastGiven (fun | .abstol v => some v | _ => none) calls).getD 1e-7
       let fnewt := (lastGiven (fun | .fnewt v => some v | _ => none) calls).getD 0.0
       s.opts.reltol = 0.1 * Fl.powf reltol (2.0 / 3.0) ∧
       s.opts.abstol = 0.1 * Fl.powf reltol (2.0 / 3.0) * (abstol / reltol) ∧
       s.opts.fnewt = if Fl.le fnewt 0.0
         then Fl.max (10.0 * Fl.eps / s.opts.reltol) (Fl.min 0.03 (Fl.sqrt s.opts.reltol))
         else fnewt) := by
  have hr : ((Builder.default Radau.alg dudt u0 tspan params).sets calls).opts.reltol = _ :=
    sets_last (fun b => b.opts.reltol) (fun | .reltol v => some v | _ => none)
      (by rintro b (_ | _) <;> rfl) calls _
  have ha : ((Builder.default Radau.alg dudt u0 tspan params).sets calls).opts.abstol = _ :=
    sets_last (fun b => b.opts.abstol) (fun | .abstol v => some v | _ => none)
      (by rintro b (_ | _) <;> rfl) calls _
  have hf : ((Builder.default Radau.alg dudt u0 tspan params).sets calls).opts.fnewt = _ :=
    sets_last (fun b => b.opts.fnewt) (fun | .fnewt v => some v | _ => none)
      (by rintro b (_ | _) <;> rfl) calls _
  refine ⟨_, rfl, ?_, ?_, ?_, ?_, ?_, ?_, ?_, ?_, ?_, ?_, ?_, ?_, ?_, ?_, ?_, ?_, ?_, ?_, ?_, ?_, ?_⟩
  · exact sets_last (fun b => b.opts.dense) _ (by rintro b (_ | _) <;> rfl) _ _
  · exact sets_last (fun b => b.opts.dtstart) _ (by rintro b (_ | _) <;> rfl) _ _
  · exact sets_last (fun b => b.opts.dtmax) _ (by rintro b (_ | _) <;> rfl) _ _
  · exact sets_last (fun b => b.opts.max_steps) _ (by rintro b (_ | _) <;> rfl) _ _
  · exact sets_last (fun b => b.opts.max_newt_iter) _ (by rintro b (_ | _) <;> rfl) _ _
  · exact sets_last (fun b => b.opts.max_stiff) _ (by rintro b (_ | _) <;> rfl) _ _
  · exact sets_last (fun b => b.opts.modern_pred) _ (by rintro b (_ | _) <;> rfl) _ _
  · exact sets_last (fun b => b.opts.safe) _ (by rintro b (_ | _) <;> rfl) _ _
  · exact sets_last (fun b => b.opts.facr) _ (by rintro b (_ | _) <;> rfl) _ _
  · exact sets_last (fun b => b.opts.facl) _ (by rintro b (_ | _) <;> rfl) _ _
  · exact sets_last (fun b => b.opts.quot1) _ (by rintro b (_ | _) <;> rfl) _ _
  · exact sets_last (fun b => b.opts.quot2) _ (by rintro b (_ | _) <;> rfl) _ _
  · exact sets_last (fun b => b.opts.beta) _ (by rintro b (_ | _) <;> rfl) _ _
  · exact sets_last (fun b => b.opts.use_ext_col) _ (by rintro b (_ | _) <;> rfl) _ _
  · exact sets_last (fun b => b.opts.hess) _ (by rintro b (_ | _) <;> rfl) _ _
  · exact sets_const (fun b => b.opts.theta) (by rintro b (_ | _) <;> rfl) _ _
  · refine (sets_last_opt (fun b => b.dfdu) (fun | .dfdu j => some j | _ => none)
      (by rintro b (_ | _) <;> rfl) calls _).trans ?_
    cases lastGiven _ calls <;> rfl
  · refine (sets_last_opt (fun b => b.dfdt) (fun | .dfdt j => some j | _ => none)
      (by rintro b (_ | _) <;> rfl) calls _).trans ?_
    cases lastGiven _ calls <;> rfl
  · simp only [Radau.adjustOpts, hr]; rfl
  · simp only [Radau.adjustOpts, hr, ha]; rfl
  · simp only [Radau.adjustOpts, hr, hf]; rfl

/-- Setting `reltol`, then `abstol`, then `reltol` again: the second `reltol` is in force and the options
not mentioned keep their defaults. -/
example (a b c : F) (dudt : Rhs F n P) (u0 : Vec n F) (tspan : F × F) (params : P) :
    ∃ s, ((Builder.default DP5.alg dudt u0 tspan params).sets
        [.reltol a, .abstol b, .max_steps 3, .reltol c]).build DP5.alg = .ok s ∧
      s.opts.reltol = c ∧ s.opts.abstol = b ∧ s.opts.max_steps = 3 ∧ s.opts.facl = 0.2 :=
  ⟨_, rfl, rfl, rfl, rfl, rfl⟩

/-- **C02** (DormandPrince5). The integrator returned by `build()`. -/
theorem C02_initial_state_dp5 (dudt : Rhs F n P) (u0 : Vec n F) (t0 tfinal : F) (params : P)
    (calls : List (Setter F n P)) :
    ∃ s, ((Builder.default DP5.alg dudt u0 (t0, tfinal) params).sets calls).build DP5.alg = .ok s ∧
      s.sol.ts = [t0] ∧ s.sol.us = [u0] ∧ s.sol.retcode = .Continue ∧
      s.stats = ⟨0, 0, 0, 0, 0, 0, 0⟩ ∧
      s.t = t0 ∧ s.tprev = t0 ∧ s.u = u0 ∧ s.uprev = u0 ∧ s.dt = 1e-6 ∧ s.dtprev = 1e-6 ∧
      s.tfinal = tfinal ∧ s.tdir = Fl.copysign 1.0 (tfinal - t0) ∧
      s.dudt = dudt ∧ s.params = params ∧ s.trace = [Call.rhs t0 u0] := by
  have h1 := sets_const (fun b : Builder F n P => b.u) (by rintro b (_ | _) <;> rfl) calls
    (Builder.default DP5.alg dudt u0 (t0, tfinal) params)
  have h2 := sets_const (fun b : Builder F n P => b.t) (by rintro b (_ | _) <;> rfl) calls
    (Builder.default DP5.alg dudt u0 (t0, tfinal) params)
  have h3 := sets_const (fun b : Builder F n P => b.tfinal) (by rintro b (_ | _) <;> rfl) calls
    (Builder.default DP5.alg dudt u0 (t0, tfinal) params)
  have h4 := sets_const (fun b : Builder F n P => b.dt) (by rintro b (_ | _) <;> rfl) calls
    (Builder.default DP5.alg dudt u0 (t0, tfinal) params)
  have h5 := sets_const (fun b : Builder F n P => b.dudt) (by rintro b (_ | _) <;> rfl) calls
    (Builder.default DP5.alg dudt u0 (t0, tfinal) params)
  have h6 := sets_const (fun b : Builder F n P => b.params) (by rintro b (_ | _) <;> rfl) calls
    (Builder.default DP5.alg dudt u0 (t0, tfinal) params)
  refine ⟨_, rfl, ?_, ?_, rfl, rfl, h2, h2, h1, h1, h4, h4, h3, ?_, h5, h6, ?_⟩
  · simp only [Solution.push, h2]; rfl
  · simp only [Solution.push, h1]; rfl
  · simp only [h2, h3]; rfl
  · simp only [h1, h2]; rfl

/-- **C02** (Radau5). The right-hand side is called at the initial point first, then the Jacobian is
evaluated there. -/
theorem C02_initial_state_radau (dudt : Rhs F n P) (u0 : Vec n F) (t0 tfinal : F) (params : P)
    (calls : List (Setter F n P)) :
    ∃ s, ((Builder.default Radau.alg dudt u0 (t0, tfinal) params).sets calls).build Radau.alg = .ok s ∧
      s.sol.ts = [t0] ∧ s.sol.us = [u0] ∧ s.sol.retcode = .Continue ∧
      s.stats = ⟨0, 0, 0, 0, 0, 0, 0⟩ ∧
      s.t = t0 ∧ s.tprev = t0 ∧ s.u = u0 ∧ s.uprev = u0 ∧ s.dt = 1e-6 ∧ s.dtprev = 1e-6 ∧
      s.tfinal = tfinal ∧ s.tdir = Fl.copysign 1.0 (tfinal - t0) ∧
      s.dudt = dudt ∧ s.params = params ∧ ∃ rest, s.trace = Call.rhs t0 u0 :: rest := by
  have h1 := sets_const (fun b : Builder F n P => b.u) (by rintro b (_ | _) <;> rfl) calls
    (Builder.default Radau.alg dudt u0 (t0, tfinal) params)
  have h2 := sets_const (fun b : Builder F n P => b.t) (by rintro b (_ | _) <;> rfl) calls
    (Builder.default Radau.alg dudt u0 (t0, tfinal) params)
  have h3 := sets_const (fun b : Builder F n P => b.tfinal) (by rintro b (_ | _) <;> rfl) calls
    (Builder.default Radau.alg dudt u0 (t0, tfinal) params)
  have h4 := sets_const (fun b : Builder F n P => b.dt) (by rintro b (_ | _) <;> rfl) calls
    (Builder.default Radau.alg dudt u0 (t0, tfinal) params)
  have h5 := sets_const (fun b : Builder F n P => b.dudt) (by rintro b (_ | _) <;> rfl) calls
    (Builder.default Radau.alg dudt u0 (t0, tfinal) params)
  have h6 := sets_const (fun b : Builder F n P => b.params) (by rintro b (_ | _) <;> rfl) calls
    (Builder.default Radau.alg dudt u0 (t0, tfinal) params)
  refine ⟨_, rfl, ?_, ?_, rfl, rfl, h2, h2, h1, h1, h4, h4, h3, ?_, h5, h6, ?_⟩
  · simp only [Solution.push, h2]; rfl
  · simp only [Solution.push, h1]; rfl
  · simp only [h2, h3]; rfl
  · exact ⟨_, by simp only [h1, h2]; rfl⟩

/-- A backward problem: `tdir` is `-1` although the first step `dt` is positive. -/
example (dudt : Rhs X 2 Unit) (u0 : Vec 2 X) :
    ∃ s, ((Builder.default DP5.alg dudt u0 (X.fin 1, X.fin 0) ()).sets [.dtstart (X.fin 2)]).build
        DP5.alg = .ok s ∧ s.tdir = X.fin (-1) ∧ s.dt = 1e-6 := by
  obtain ⟨s, h, -, -, -, -, -, -, -, -, h1, -, -, h2, -⟩ := C02_initial_state_dp5 dudt u0 (X.fin 1)
    (X.fin 0) () [.dtstart (X.fin 2)]
  refine ⟨s, h, ?_, h1⟩
  rw [h2, X.sci, X.sub_fin, X.copysign_fin]
  norm_num

/-- **C55** No integrator for `Rodas` can be built, whatever the builder. -/
theorem C55_rodas_build_panics (b : Builder F n P) : b.build Rodas.alg = .panic := rfl

end Cyphus
