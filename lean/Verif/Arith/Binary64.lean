import Verif.Proofs.FloatBasic
import Mathlib.Data.Int.Log
/-!
# Double precision

`B64` consists of the values of the IEEE-754 doubles (with one zero and one NaN); operations are the exact ones
followed by rounding to nearest, ties to even. `powf` and `powi` are assumed to be correctly rounded as well. The
laws of `FloatLaws` are proved for it.
-/

namespace Cyphus
open X
set_option autoImplicit false
noncomputable section

/-- Rounding to the nearest integer, ties to even. -/
def roundEven (y : ℝ) : ℤ :=
  if y - ⌊y⌋ < 1 / 2 then ⌊y⌋ else if 1 / 2 < y - ⌊y⌋ then ⌊y⌋ + 1 else if Even ⌊y⌋ then ⌊y⌋ else ⌊y⌋ + 1

theorem roundEven_bounds (y : ℝ) : ⌊y⌋ ≤ roundEven y ∧ roundEven y ≤ ⌊y⌋ + 1 := by
  unfold roundEven
  split_ifs <;> omega

theorem roundEven_mono {y z : ℝ} (h : y ≤ z) : roundEven y ≤ roundEven z := by
  have hf := Int.floor_mono h
  obtain hlt | heq := hf.lt_or_eq
  · have := roundEven_bounds y
    have := roundEven_bounds z
    omega
  · unfold roundEven
    rw [heq]
    split_ifs <;> first | omega | (exfalso; linarith)

theorem roundEven_int (k : ℤ) : roundEven k = k := by simp [roundEven]

/-- The exponent of the last place of a nonnegative number. -/
def ulpExp (x : ℝ) : ℤ := max (-1074) (Int.log 2 x - 52)

/-- Rounding of nonnegative numbers with unbounded exponent. -/
def roundPos (x : ℝ) : ℝ := roundEven (x / 2 ^ ulpExp x) * 2 ^ ulpExp x

/-- Rounding with unbounded exponent. -/
def roundUnb (x : ℝ) : ℝ := if 0 ≤ x then roundPos x else -roundPos (-x)

/-- The least power of two that is too large. -/
def huge : ℝ := 2 ^ (1024 : ℤ)

theorem huge_pos : 0 < huge := zpow_pos two_pos _

/-- Rounding to double precision. -/
def round64 (x : ℝ) : X :=
  if roundUnb x ≤ -huge then ninf else if huge ≤ roundUnb x then pinf else fin (roundUnb x)

/-- The finite double-precision numbers. -/
def Rep64 (x : ℝ) : Prop := ∃ m e : ℤ, |m| < 2 ^ 53 ∧ -1074 ≤ e ∧ e ≤ 971 ∧ x = m * 2 ^ e

theorem two_pow_pos (e : ℤ) : (0 : ℝ) < 2 ^ e := zpow_pos two_pos e
theorem two_pow_le {a b : ℤ} (h : a ≤ b) : (2 : ℝ) ^ a ≤ 2 ^ b := zpow_le_zpow_right₀ one_le_two h
theorem two_pow_mul (a b : ℤ) : (2 : ℝ) ^ a * 2 ^ b = 2 ^ (a + b) := (zpow_add₀ two_ne_zero a b).symm

theorem ulpExp_cases (x : ℝ) : ulpExp x = -1074 ∨ (-1074 ≤ ulpExp x ∧ ulpExp x = Int.log 2 x - 52) := by
  unfold ulpExp; omega

/-- A number has at most 53 digits before its last place … -/
theorem scaled_lt {x : ℝ} (h : 0 < x) : x / 2 ^ ulpExp x < 2 ^ 53 := by
  rw [div_lt_iff₀ (two_pow_pos _)]
  have h1 := Int.lt_zpow_succ_log_self (b := 2) one_lt_two x
  have h2 : (2 : ℝ) ^ 53 * 2 ^ ulpExp x = 2 ^ (53 + ulpExp x) := by
    rw [← two_pow_mul]; norm_cast
  rw [h2]
  refine lt_of_lt_of_le (by exact_mod_cast h1) (two_pow_le ?_)
  unfold ulpExp; omega

/-- … and exactly 53 unless it is subnormal. -/
theorem le_scaled {x : ℝ} (h : 0 < x) (he : ulpExp x ≠ -1074) : 2 ^ 52 ≤ x / 2 ^ ulpExp x := by
  rw [le_div_iff₀ (two_pow_pos _)]
  have h1 := Int.zpow_log_le_self (b := 2) one_lt_two h
  have h2 : (2 : ℝ) ^ 52 * 2 ^ ulpExp x = 2 ^ (52 + ulpExp x) := by
    rw [← two_pow_mul]; norm_cast
  rw [h2]
  refine le_trans (two_pow_le ?_) (by exact_mod_cast h1)
  have := ulpExp_cases x; omega

theorem roundPos_zero : roundPos 0 = 0 := by
  have : roundEven 0 = 0 := by simpa using roundEven_int 0
  simp [roundPos, this]

theorem roundPos_nonneg {x : ℝ} (h : 0 ≤ x) : 0 ≤ roundPos x := by
  unfold roundPos
  refine mul_nonneg ?_ (two_pow_pos _).le
  have : (0 : ℤ) ≤ ⌊x / 2 ^ ulpExp x⌋ := Int.floor_nonneg.2 (div_nonneg h (two_pow_pos _).le)
  exact_mod_cast this.trans (roundEven_bounds _).1

theorem roundEven_le {y : ℝ} {k : ℤ} (h : y ≤ k) : roundEven y ≤ k := by
  have := roundEven_mono h
  rwa [roundEven_int] at this

theorem le_roundEven {y : ℝ} {k : ℤ} (h : (k : ℝ) ≤ y) : k ≤ roundEven y := by
  have := roundEven_mono h
  rwa [roundEven_int] at this

theorem roundPos_le {x : ℝ} (h : 0 < x) : roundPos x ≤ 2 ^ (53 + ulpExp x) := by
  unfold roundPos
  rw [← two_pow_mul]
  refine mul_le_mul_of_nonneg_right ?_ (two_pow_pos _).le
  have : roundEven (x / 2 ^ ulpExp x) ≤ 2 ^ 53 := roundEven_le (by have := (scaled_lt h).le; norm_num at this ⊢; exact this)
  exact_mod_cast this

theorem le_roundPos {x : ℝ} (h : 0 < x) (he : ulpExp x ≠ -1074) : 2 ^ (52 + ulpExp x) ≤ roundPos x := by
  unfold roundPos
  rw [← two_pow_mul]
  refine mul_le_mul_of_nonneg_right ?_ (two_pow_pos _).le
  have : 2 ^ 52 ≤ roundEven (x / 2 ^ ulpExp x) := le_roundEven (by have := le_scaled h he; norm_num at this ⊢; exact this)
  exact_mod_cast this

theorem roundPos_mono {x y : ℝ} (h : 0 ≤ x) (hxy : x ≤ y) : roundPos x ≤ roundPos y := by
  obtain h | rfl := h.lt_or_eq
  · have hy := h.trans_le hxy
    have he : ulpExp x ≤ ulpExp y := by
      have := Int.log_mono_right (b := 2) h hxy
      unfold ulpExp; omega
    obtain he | he := he.lt_or_eq
    · have h1 := roundPos_le h
      have h2 := le_roundPos hy (by have := ulpExp_cases x; omega)
      exact h1.trans ((two_pow_le (by omega)).trans h2)
    · unfold roundPos
      rw [he]
      refine mul_le_mul_of_nonneg_right ?_ (two_pow_pos _).le
      exact_mod_cast roundEven_mono (div_le_div_of_nonneg_right hxy (two_pow_pos _).le)
  · rw [roundPos_zero]; exact roundPos_nonneg hxy

theorem roundUnb_mono {x y : ℝ} (h : x ≤ y) : roundUnb x ≤ roundUnb y := by
  unfold roundUnb
  split_ifs with h1 h2 h2
  · exact roundPos_mono h1 h
  · linarith
  · have := roundPos_nonneg (x := -x) (by linarith)
    have := roundPos_nonneg h2
    linarith
  · have := roundPos_mono (x := -y) (y := -x) (by linarith) (by linarith)
    linarith

theorem Rep64.neg {x : ℝ} (h : Rep64 x) : Rep64 (-x) := by
  obtain ⟨m, e, h1, h2, h3, rfl⟩ := h
  exact ⟨-m, e, by rwa [abs_neg], h2, h3, by push_cast; ring⟩

theorem Rep64.lt {x : ℝ} (h : Rep64 x) : x < huge := by
  obtain ⟨m, e, h1, h2, h3, rfl⟩ := h
  have hm : (m : ℝ) < 2 ^ 53 := by exact_mod_cast (le_abs_self m).trans_lt h1
  calc (m : ℝ) * 2 ^ e < 2 ^ 53 * 2 ^ e := mul_lt_mul_of_pos_right hm (two_pow_pos _)
    _ ≤ 2 ^ 53 * 2 ^ (971 : ℤ) := mul_le_mul_of_nonneg_left (two_pow_le h3) (by positivity)
    _ = huge := by
      have : (2 : ℝ) ^ 53 = 2 ^ (53 : ℤ) := by norm_cast
      rw [this, two_pow_mul]; rfl

theorem roundPos_rep {x : ℝ} (h : Rep64 x) (h0 : 0 ≤ x) : roundPos x = x := by
  obtain h0 | rfl := h0.lt_or_eq
  · obtain ⟨m, e, h1, h2, h3, rfl⟩ := h
    set x := (m : ℝ) * 2 ^ e with hx
    have hm : (m : ℝ) < 2 ^ 53 := by exact_mod_cast (le_abs_self m).trans_lt h1
    have he : ulpExp x ≤ e := by
      have : x < 2 ^ (53 + e) := by
        rw [← two_pow_mul]
        exact mul_lt_mul_of_pos_right (by exact_mod_cast hm) (two_pow_pos _)
      have h4 := Int.zpow_log_le_self (b := 2) one_lt_two h0
      have h5 : Int.log 2 x < 53 + e := by
        by_contra hc
        push Not at hc
        have := two_pow_le hc
        have h6 : (2 : ℝ) ^ Int.log 2 x ≤ x := by exact_mod_cast h4
        linarith
      unfold ulpExp; omega
    have hk : x / 2 ^ ulpExp x = ((m * 2 ^ (e - ulpExp x).toNat : ℤ) : ℝ) := by
      rw [div_eq_iff (two_pow_pos _).ne', hx]
      push_cast
      rw [mul_assoc]
      congr 1
      have : ((2 : ℝ) ^ (e - ulpExp x).toNat) = 2 ^ (e - ulpExp x) := by
        rw [← zpow_natCast]; congr 1; omega
      rw [← hx, this, two_pow_mul]; congr 1; omega
    unfold roundPos
    rw [hk, roundEven_int, ← hk, div_mul_cancel₀ _ (two_pow_pos _).ne']
  · exact roundPos_zero

theorem roundUnb_rep {x : ℝ} (h : Rep64 x) : roundUnb x = x := by
  unfold roundUnb
  split_ifs with h0
  · exact roundPos_rep h h0
  · rw [roundPos_rep h.neg (by linarith), neg_neg]

theorem round64_rep {x : ℝ} (h : Rep64 x) : round64 x = fin x := by
  have h1 := h.lt
  have h2 := h.neg.lt
  unfold round64
  rw [roundUnb_rep h, if_neg (by linarith), if_neg (by linarith)]

theorem rep_roundPos {x : ℝ} (h : 0 ≤ x) (hlt : roundPos x < huge) : Rep64 (roundPos x) := by
  obtain h | rfl := h.lt_or_eq
  · set m := roundEven (x / 2 ^ ulpExp x) with hm
    have hr : roundPos x = m * 2 ^ ulpExp x := rfl
    have m1 : m ≤ 2 ^ 53 := roundEven_le (by have := (scaled_lt h).le; norm_num at this ⊢; exact this)
    have m0 : 0 ≤ m := le_roundEven (by push_cast; exact div_nonneg h.le (two_pow_pos _).le)
    have e0 : -1074 ≤ ulpExp x := by unfold ulpExp; omega
    have e1 : ulpExp x ≤ 971 := by
      by_contra hc
      have h1 := le_roundPos h (by omega)
      have h2 : huge ≤ 2 ^ (52 + ulpExp x) := two_pow_le (by omega)
      linarith
    obtain m1 | m1 := m1.lt_or_eq
    · exact ⟨m, ulpExp x, by rwa [abs_of_nonneg m0], e0, e1, hr⟩
    · have he : ulpExp x < 971 := by
        by_contra hc
        have h2 : huge ≤ 2 ^ (53 + ulpExp x) := two_pow_le (by omega)
        have h4 : roundPos x = 2 ^ (53 + ulpExp x) := by
          have : (2 : ℝ) ^ 53 = 2 ^ (53 : ℤ) := by norm_cast
          rw [hr, m1, ← two_pow_mul, ← this]; norm_num
        linarith
      refine ⟨2 ^ 52, ulpExp x + 1, by norm_num, by omega, by omega, ?_⟩
      rw [hr, m1]
      push_cast
      rw [zpow_add₀ two_ne_zero]; norm_num; ring
  · rw [roundPos_zero]; exact ⟨0, 0, by norm_num, by norm_num, by norm_num, by simp⟩

theorem rep_round64 {x y : ℝ} (h : round64 x = fin y) : Rep64 y := by
  unfold round64 at h
  split_ifs at h with h1 h2
  rw [fin_inj] at h
  subst h
  push Not at h1 h2
  unfold roundUnb at h1 h2 ⊢
  split_ifs with h0
  · rw [if_pos h0] at h2; exact rep_roundPos h0 h2
  · rw [if_neg h0] at h1; exact (rep_roundPos (by linarith) (by linarith)).neg

theorem round64_mono {x y : ℝ} (h : x ≤ y) : Fl.le (round64 x) (round64 y) = true := by
  have := roundUnb_mono h
  have := huge_pos
  unfold round64
  split_ifs <;> simp_all [Fl.le, leX] <;> linarith

theorem rep_nat {k : ℕ} (h : k ≤ 2 ^ 53) : Rep64 k := by
  obtain h | rfl := h.lt_or_eq
  · exact ⟨k, 0, by rw [abs_of_nonneg (by positivity)]; exact_mod_cast h, by norm_num, by norm_num, by simp⟩
  · exact ⟨2 ^ 52, 1, by norm_num, by norm_num, by norm_num, by norm_num⟩

theorem Rep64.sub_ge {x y : ℝ} (hx : Rep64 x) (hy : Rep64 y) (h : x < y) : (2 : ℝ) ^ (-1074 : ℤ) ≤ y - x := by
  obtain ⟨m, e, -, h2, -, rfl⟩ := hx
  obtain ⟨m', e', -, h2', -, rfl⟩ := hy
  have sc : ∀ {e : ℤ}, -1074 ≤ e → (2 : ℝ) ^ e = ((2 ^ (e + 1074).toNat : ℤ) : ℝ) * 2 ^ (-1074 : ℤ) := by
    intro e he
    push_cast
    have : ((2 : ℝ) ^ (e + 1074).toNat) = 2 ^ (e + 1074) := by
      rw [← zpow_natCast]; congr 1; omega
    rw [this, two_pow_mul]; congr 1; omega
  rw [sc h2, sc h2'] at h ⊢
  have p := two_pow_pos (-1074)
  rw [← mul_assoc, ← mul_assoc] at h ⊢
  rw [← sub_mul]
  have h := lt_of_mul_lt_mul_right h p.le
  have h1 : (m * 2 ^ (e + 1074).toNat : ℤ) + 1 ≤ m' * 2 ^ (e' + 1074).toNat := by
    have : (m * 2 ^ (e + 1074).toNat : ℤ) < m' * 2 ^ (e' + 1074).toNat := by exact_mod_cast h
    omega
  have h2 : ((m * 2 ^ (e + 1074).toNat : ℤ) : ℝ) + 1 ≤ ((m' * 2 ^ (e' + 1074).toNat : ℤ) : ℝ) := by exact_mod_cast h1
  push_cast at h2 ⊢
  nlinarith

theorem rep_tiny : Rep64 (2 ^ (-1074 : ℤ)) := ⟨1, -1074, by norm_num, by norm_num, by norm_num, by simp⟩

/-- The values of double-precision numbers. -/
structure B64 where
  x : X
  rep : ∀ r, x = fin r → Rep64 r

namespace B64

/-- Rounding an exact result. -/
def ofX (x : X) : B64 where
  x := x.round round64
  rep r h := by
    cases x with
    | fin y => exact rep_round64 h
    | _ => simp [X.round] at h

theorem ofX_rep {x : X} (h : ∀ r, x = fin r → Rep64 r) : (ofX x).x = x := by
  cases x with
  | fin r => exact round64_rep (h r rfl)
  | _ => rfl

instance : Add B64 := ⟨fun a b => ofX (a.x + b.x)⟩
instance : Sub B64 := ⟨fun a b => ofX (a.x - b.x)⟩
instance : Mul B64 := ⟨fun a b => ofX (a.x * b.x)⟩
instance : Div B64 := ⟨fun a b => ofX (a.x / b.x)⟩
instance : Neg B64 := ⟨fun a => ofX (-a.x)⟩
instance : OfScientific B64 := ⟨fun m s e => ofX (OfScientific.ofScientific m s e)⟩
instance : FlInf B64 := ⟨ofX pinf⟩
instance : Fl B64 where
  abs a := ofX (Fl.abs a.x)
  sqrt a := ofX (Fl.sqrt a.x)
  max a b := ofX (Fl.max a.x b.x)
  min a b := ofX (Fl.min a.x b.x)
  powf a b := ofX (Fl.powf a.x b.x)
  powi a k := ofX (Fl.powi a.x k)
  copysign a b := ofX (Fl.copysign a.x b.x)
  mulAdd a b c := ofX (Fl.mulAdd a.x b.x c.x)
  lt a b := Fl.lt a.x b.x
  le a b := Fl.le a.x b.x
  eq a b := Fl.eq a.x b.x
  ofNat k := ofX (Fl.ofNat k)
  eps := ofX Fl.eps

theorem max_mem (a b : X) : Fl.max a b = a ∨ Fl.max a b = b := by
  cases a <;> cases b <;> simp [Fl.max, maxX, leX]
  rename_i x y
  by_cases h : x ≤ y <;> by_cases h' : y ≤ x <;> simp_all <;> grind

theorem min_mem (a b : X) : Fl.min a b = a ∨ Fl.min a b = b := by
  cases a <;> cases b <;> simp [Fl.min, minX, leX]
  rename_i x y
  by_cases h : x ≤ y <;> by_cases h' : y ≤ x <;> simp_all <;> grind

/-- Double precision satisfies the laws of floating-point arithmetic. -/
theorem laws : FloatLaws B64.x round64 where
  rnd_mono := round64_mono
  rnd_val {a x} h := round64_rep (a.rep x h)
  rnd_nat k h := round64_rep (rep_nat h)
  rnd_pos {a b x y} ha hb h := by
    have h1 := round64_mono ((a.rep x ha).sub_ge (b.rep y hb) h)
    rw [round64_rep rep_tiny] at h1
    obtain ⟨z, e, hz⟩ | e := ge_cases h1
    · rw [e]; simpa using (two_pow_pos _).trans_le hz
    · rw [e]; rfl
  lit _ _ _ := rfl
  ofNat _ := rfl
  add _ _ := rfl
  sub _ _ := rfl
  mul _ _ := rfl
  div _ _ _ := rfl
  neg a := by
    refine ofX_rep fun r h => ?_
    cases hx : a.x with
    | fin y => rw [hx] at h; cases h; exact (a.rep y hx).neg
    | _ => rw [hx] at h; cases h
  abs a := by
    refine ofX_rep fun r h => ?_
    cases hx : a.x with
    | fin y =>
      rw [hx] at h; cases h
      obtain h | h := abs_choice y <;> rw [h]
      · exact a.rep y hx
      · exact (a.rep y hx).neg
    | _ => rw [hx] at h; cases h
  max a b := by
    refine ofX_rep fun r h => ?_
    obtain e | e := max_mem a.x b.x <;> rw [e] at h
    · exact a.rep r h
    · exact b.rep r h
  min a b := by
    refine ofX_rep fun r h => ?_
    obtain e | e := min_mem a.x b.x <;> rw [e] at h
    · exact a.rep r h
    · exact b.rep r h
  lt _ _ := rfl
  le _ _ := rfl
  copysign a b h := by
    have e : Fl.copysign a.x b.x = Fl.abs a.x := by
      obtain ⟨y, e, hy⟩ | e := gt_cases h
      · rw [e]
        change (if 0 ≤ y then absX a.x else _) = _
        rw [if_pos hy.le]; rfl
      · rw [e]; cases a.x <;> rfl
    change (ofX (Fl.copysign a.x b.x)).x = _
    rw [e]
    refine ofX_rep fun r h => ?_
    cases hx : a.x with
    | fin y =>
      rw [hx] at h; cases h
      obtain h | h := abs_choice y <;> rw [h]
      · exact a.rep y hx
      · exact (a.rep y hx).neg
    | _ => rw [hx] at h; cases h
  pow_ge {a b} ha hb := by
    have key : Fl.powf a.x b.x = nan ∨ Fl.le (fin 1) (Fl.powf a.x b.x) = true := by
      change powX a.x b.x = nan ∨ Fl.le (fin 1) (powX a.x b.x) = true
      obtain e | h := not_lt_cases ha
      · rw [e]
        unfold powX
        split
        · right; simp
        · left; rfl
      · obtain ⟨x, e, hx⟩ | e := ge_cases h <;> obtain ⟨y, e', hy⟩ | e' := ge_cases hb <;> rw [e, e']
        · right
          have := powf_fin (lt_of_lt_of_le one_pos hx) y
          change powX (fin x) (fin y) = _ at this
          rw [this]
          simpa using Real.one_le_rpow hx hy
        · right
          unfold powX
          split
          · simp
          · simp only
            rw [if_neg (by rw [abs_of_nonneg (by linarith)]; linarith)]
            split
            · simp
            · rfl
        · right
          unfold powX
          split
          · simp
          · rename_i hn
            simp only [fin_inj, reduceCtorEq, or_false] at hn
            simp only
            rw [if_pos (lt_of_le_of_ne hy (Ne.symm hn))]; rfl
        · right
          unfold powX
          simp; rfl
    change Fl.lt ((Fl.powf a.x b.x).round round64) (fin 1) = false
    obtain e | h := key
    · rw [e]; rfl
    · obtain ⟨y, e, hy⟩ | e := ge_cases h
      · rw [e, round_fin]
        have := round64_mono hy
        rw [show round64 1 = fin 1 from by simpa using round64_rep (rep_nat (k := 1) (by norm_num))] at this
        obtain ⟨z, e, hz⟩ | e := ge_cases this
        · rw [e]; simpa using hz
        · rw [e]; rfl
      · rw [e]; rfl
  pow_le {a b x y} ha hx hb hy := by
    change ∃ z, (Fl.powf a.x b.x).round round64 = fin z ∧ _
    rw [ha, hb, powf_fin (lt_of_lt_of_le one_pos hx), round_fin]
    have h1 : round64 1 = fin 1 := by simpa using round64_rep (rep_nat (k := 1) (by norm_num))
    have h0 : round64 0 = fin 0 := by simpa using round64_rep (rep_nat (k := 0) (by norm_num))
    have m0 := round64_mono (Real.rpow_nonneg (zero_le_one.trans hx) y)
    have m1 := round64_mono (Real.rpow_le_one_of_one_le_of_nonpos hx hy)
    rw [h0] at m0
    rw [h1] at m1
    exact mid_cases m0 m1

end B64
end
end Cyphus
