import Verif.Arith.Binary64
/-!
# When `t + (tf - t)` is `tf` in double precision
-/

namespace Cyphus
open X
set_option autoImplicit false
noncomputable section

theorem roundEven_err (y : ℝ) : |roundEven y - y| ≤ 1 / 2 := by
  have h1 := Int.floor_le y
  have h2 := Int.lt_floor_add_one y
  unfold roundEven
  rw [abs_le]
  split_ifs <;> push_cast <;> constructor <;> linarith

theorem roundPos_err (x : ℝ) : |roundPos x - x| ≤ 2 ^ ulpExp x / 2 := by
  have p := two_pow_pos (ulpExp x)
  have h := roundEven_err (x / 2 ^ ulpExp x)
  have e : roundPos x - x = (roundEven (x / 2 ^ ulpExp x) - x / 2 ^ ulpExp x) * 2 ^ ulpExp x := by
    unfold roundPos; field_simp
  rw [e, abs_mul, abs_of_pos p]
  nlinarith

theorem ulpExp_mono {x y : ℝ} (h : 0 < x) (hxy : x ≤ y) : ulpExp x ≤ ulpExp y := by
  have := Int.log_mono_right (b := 2) h hxy
  unfold ulpExp; omega

theorem log_lt {x : ℝ} {e : ℤ} (h : 0 < x) (hx : x < 2 ^ e) : Int.log 2 x < e := by
  by_contra hc
  push Not at hc
  have h4 := Int.zpow_log_le_self (b := 2) one_lt_two h
  have h6 : (2 : ℝ) ^ Int.log 2 x ≤ x := by exact_mod_cast h4
  linarith [two_pow_le hc]

theorem le_log {x : ℝ} {e : ℤ} (hx : 2 ^ e ≤ x) : e ≤ Int.log 2 x := by
  by_contra hc
  push Not at hc
  have h1 := Int.lt_zpow_succ_log_self (b := 2) one_lt_two x
  have h6 : x < (2 : ℝ) ^ (Int.log 2 x + 1) := by exact_mod_cast h1
  linarith [two_pow_le (show Int.log 2 x + 1 ≤ e by omega)]

/-- The exponent of the last place from bounds. -/
theorem ulpExp_eq {x : ℝ} {e : ℤ} (h : 0 < x) (h1 : x < 2 ^ (e + 53)) (h2 : e = -1074 ∨ -1074 ≤ e ∧ 2 ^ (e + 52) ≤ x) :
    ulpExp x = e := by
  have := log_lt h h1
  unfold ulpExp
  obtain rfl | ⟨h2, h3⟩ := h2
  · omega
  · have := le_log h3
    omega

/-- Numbers with at most 52 significant bits: the last bit of the double is zero. -/
def Even64 (x : ℝ) : Prop := ∃ m e : ℤ, |m| < 2 ^ 52 ∧ -1073 ≤ e ∧ e ≤ 972 ∧ x = m * 2 ^ e

theorem Even64.rep {x : ℝ} (h : Even64 x) : Rep64 x := by
  obtain ⟨m, e, h1, h2, h3, rfl⟩ := h
  refine ⟨2 * m, e - 1, ?_, by omega, by omega, ?_⟩
  · rw [abs_mul]; norm_num at h1 ⊢; omega
  · push_cast
    rw [zpow_sub₀ two_ne_zero]; field_simp

/-- The integer significand of such a number is even. -/
theorem Even64.significand {x : ℝ} (h : Even64 x) (h0 : 0 < x) :
    ∃ M : ℤ, x = M * 2 ^ ulpExp x ∧ Even M ∧ 0 < M ∧ M < 2 ^ 53 ∧
      (ulpExp x = -1074 ∨ -1074 < ulpExp x ∧ 2 ^ 52 ≤ M) := by
  obtain ⟨m, e, h1, h2, h3, hx⟩ := h
  have hm : (m : ℝ) < 2 ^ 52 := by exact_mod_cast (le_abs_self m).trans_lt h1
  have he : ulpExp x ≤ e - 1 := by
    have : x < 2 ^ (52 + e) := by
      rw [← two_pow_mul, hx]
      exact mul_lt_mul_of_pos_right (by exact_mod_cast hm) (two_pow_pos _)
    have := log_lt h0 this
    unfold ulpExp; omega
  have hM : x = ((m * 2 ^ (e - ulpExp x).toNat : ℤ) : ℝ) * 2 ^ ulpExp x := by
    push_cast
    have : ((2 : ℝ) ^ (e - ulpExp x).toNat) = 2 ^ (e - ulpExp x) := by
      rw [← zpow_natCast]; congr 1; omega
    rw [this, mul_assoc, two_pow_mul, sub_add_cancel, ← hx]
  have hsc : x / 2 ^ ulpExp x = ((m * 2 ^ (e - ulpExp x).toNat : ℤ) : ℝ) := by
    rw [div_eq_iff (two_pow_pos _).ne']; exact hM
  refine ⟨m * 2 ^ (e - ulpExp x).toNat, hM, ?_, ?_, ?_, ?_⟩
  · refine (Int.even_pow.2 ⟨even_two, by omega⟩).mul_left _
  · have : 0 < x / 2 ^ ulpExp x := div_pos h0 (two_pow_pos _)
    rw [hsc] at this
    exact_mod_cast this
  · have := scaled_lt h0
    rw [hsc] at this
    exact_mod_cast this
  · by_cases hs : ulpExp x = -1074
    · exact .inl hs
    · have := le_scaled h0 hs
      rw [hsc] at this
      refine .inr ⟨?_, by exact_mod_cast this⟩
      unfold ulpExp at hs ⊢; omega

theorem roundEven_half {M : ℤ} (h : Even M) : roundEven (M + 1 / 2) = M := by
  have : ⌊(M : ℝ) + 1 / 2⌋ = M := by rw [Int.floor_eq_iff]; constructor <;> linarith
  unfold roundEven
  rw [this, if_neg (by linarith), if_neg (by linarith), if_pos h]

theorem roundEven_half' {M : ℤ} (h : Even M) : roundEven (M - 1 / 2) = M := by
  have : ⌊(M : ℝ) - 1 / 2⌋ = M - 1 := by
    rw [Int.floor_eq_iff]; push_cast; constructor <;> linarith
  unfold roundEven
  rw [this, if_neg (by push_cast; linarith), if_neg (by push_cast; linarith), if_neg]
  · ring
  · rw [Int.not_even_iff_odd]; exact h.sub_odd odd_one

theorem roundEven_near {M : ℤ} : roundEven (M - 1 / 4) = M := by
  have : ⌊(M : ℝ) - 1 / 4⌋ = M - 1 := by
    rw [Int.floor_eq_iff]; push_cast; constructor <;> linarith
  unfold roundEven
  rw [this, if_neg (by push_cast; linarith), if_pos (by push_cast; linarith)]
  ring

theorem roundPos_of {x : ℝ} {e : ℤ} (h : ulpExp x = e) {y : ℝ} (hx : x = y * 2 ^ e) :
    roundPos x = roundEven y * 2 ^ e := by
  unfold roundPos
  rw [h, hx, mul_div_cancel_right₀ _ (two_pow_pos _).ne']

/-- The end of a step that aims at `tf`, in double precision. -/
theorem roundPos_last {t tf : ℝ} (h0 : 0 ≤ t) (ht : t < tf) (htr : Rep64 t) (he : Even64 tf) :
    roundPos (t + roundPos (tf - t)) = tf := by
  have hp : 0 < tf := lt_of_le_of_lt h0 ht
  obtain ⟨M, hM, Me, M0, M1, hE⟩ := he.significand hp
  obtain h0 | rfl := h0.lt_or_eq
  swap
  · rw [sub_zero, roundPos_rep he.rep hp.le, zero_add, roundPos_rep he.rep hp.le]
  set E := ulpExp tf with hEd
  have p := two_pow_pos E
  have hd : 0 < tf - t := by linarith
  have herr := abs_le.1 (roundPos_err (tf - t))
  have hmono : ulpExp (tf - t) ≤ E := ulpExp_mono hd (by linarith)
  have h53 : (2 : ℝ) ^ (E + 53) = 2 ^ 53 * 2 ^ E := by rw [← two_pow_mul, mul_comm]; norm_cast
  have h52 : (2 : ℝ) ^ (E + 52) = 2 ^ 52 * 2 ^ E := by rw [← two_pow_mul, mul_comm]; norm_cast
  have hM1 : (M : ℝ) + 1 ≤ 2 ^ 53 := by exact_mod_cast M1
  have hM0 : (1 : ℝ) ≤ M := by exact_mod_cast M0
  have hx0 : 0 ≤ t + roundPos (tf - t) := add_nonneg h0.le (roundPos_nonneg hd.le)
  apply le_antisymm
  · -- not beyond `tf`
    have hz : t + roundPos (tf - t) ≤ (M + 1 / 2) * 2 ^ E := by
      have := two_pow_le hmono
      linarith [herr.2]
    refine (roundPos_mono hx0 hz).trans (le_of_eq ?_)
    rw [roundPos_of (e := E) ?_ rfl, roundEven_half Me, ← hM]
    refine ulpExp_eq (by positivity) ?_ ?_
    · rw [h53]; exact mul_lt_mul_of_pos_right (by linarith) p
    · obtain h | ⟨h, h'⟩ := hE
      · exact .inl h
      · refine .inr ⟨h.le, ?_⟩
        rw [h52]
        have : (2 : ℝ) ^ 52 ≤ M := by exact_mod_cast h'
        exact mul_le_mul_of_nonneg_right (by linarith) p.le
  · by_cases hb : E = -1074 ∨ 2 ^ 52 < M
    · -- the spacing below `tf` is the same
      have hz : (M - 1 / 2) * 2 ^ E ≤ t + roundPos (tf - t) := by
        have := two_pow_le hmono
        linarith [herr.1]
      refine le_trans (le_of_eq ?_) (roundPos_mono (mul_nonneg (by linarith) p.le) hz)
      rw [roundPos_of (e := E) ?_ rfl, roundEven_half' Me, ← hM]
      refine ulpExp_eq (mul_pos (by linarith) p) ?_ ?_
      · rw [h53]; exact mul_lt_mul_of_pos_right (by linarith) p
      · refine hb.imp id fun h => ?_
        refine ⟨by rw [hEd]; unfold ulpExp; omega, ?_⟩
        rw [h52]
        have : (2 : ℝ) ^ 52 + 1 ≤ M := by exact_mod_cast h
        exact mul_le_mul_of_nonneg_right (by linarith) p.le
    · -- `tf` is a power of two
      push Not at hb
      obtain ⟨hb1, hb2⟩ := hb
      obtain h | ⟨h, h'⟩ := hE
      · exact absurd h hb1
      have hMe : M = 2 ^ 52 := le_antisymm hb2 h'
      have hMr : (M : ℝ) = 2 ^ 52 := by rw [hMe]; norm_cast
      have hlt : ulpExp (tf - t) ≤ E - 1 := by
        have : tf - t < 2 ^ (E + 52) := by rw [h52, ← hMr, ← hM]; linarith
        have := log_lt hd this
        unfold ulpExp; omega
      have hE1 : (2 : ℝ) ^ (E - 1) = 2 ^ E / 2 := by
        rw [zpow_sub₀ two_ne_zero]; norm_num
      have hz : ((2 ^ 53 : ℤ) - 1 / 2 : ℝ) * 2 ^ (E - 1) ≤ t + roundPos (tf - t) := by
        have := two_pow_le hlt
        rw [hE1] at this ⊢
        rw [hMr] at hM
        push_cast
        linarith [herr.1]
      refine le_trans (le_of_eq ?_) (roundPos_mono (mul_nonneg (by norm_num) (two_pow_pos _).le) hz)
      have hev : Even (2 ^ 53 : ℤ) := by decide
      rw [roundPos_of (e := E - 1) ?_ (y := ((2 ^ 53 : ℤ) : ℝ) - 1 / 2) (by push_cast; rfl), roundEven_half' hev, hE1]
      · rw [hM, hMr]; push_cast; ring
      refine ulpExp_eq (mul_pos (by norm_num) (two_pow_pos _)) ?_ (.inr ⟨by omega, ?_⟩)
      · rw [show E - 1 + 53 = E + 52 by ring, h52, hE1]
        push_cast
        linarith
      · rw [show E - 1 + 52 = (E - 1) + 52 by ring, ← two_pow_mul, mul_comm]
        refine mul_le_mul_of_nonneg_right ?_ (two_pow_pos _).le
        push_cast; norm_num

/-- For `0 ≤ t ≤ tf` and `tf` with at most 52 significant bits, `t + (tf - t)` is `tf`. -/
theorem B64.last {t tf : B64} {x y : ℝ} (ht : t.x = fin x) (htf : tf.x = fin y) (h0 : 0 ≤ x) (hxy : x ≤ y)
    (he : Even64 y) : t + (tf - t) = tf := by
  have ext : ∀ {a b : B64}, a.x = b.x → a = b := by
    rintro ⟨a, _⟩ ⟨b, _⟩ h; simp only at h; subst h; rfl
  apply ext
  obtain hlt | rfl := hxy.lt_or_eq
  · have h1 : (tf - t).x = fin (roundPos (y - x)) := by
      change (ofX (tf.x - t.x)).x = _
      rw [htf, ht, sub_fin]
      change round64 (y - x) = _
      have : roundUnb (y - x) = roundPos (y - x) := by unfold roundUnb; rw [if_pos (by linarith)]
      have hle : roundPos (y - x) ≤ y := by
        have := roundPos_mono (x := y - x) (y := y) (by linarith) (by linarith)
        rwa [roundPos_rep he.rep (by linarith)] at this
      unfold round64
      rw [this, if_neg, if_neg]
      · exact not_le.2 (hle.trans_lt he.rep.lt)
      · have := roundPos_nonneg (x := y - x) (by linarith)
        linarith [huge_pos]
    change (ofX (t.x + (tf - t).x)).x = _
    rw [h1, ht, htf, add_fin]
    change round64 _ = _
    have h2 := roundPos_last h0 hlt (t.rep x ht) he
    have : roundUnb (x + roundPos (y - x)) = y := by
      unfold roundUnb
      rw [if_pos (add_nonneg h0 (roundPos_nonneg (by linarith))), h2]
    unfold round64
    rw [this, if_neg, if_neg (not_le.2 he.rep.lt)]
    linarith [huge_pos]
  · have r0 : round64 0 = fin 0 := by simpa using round64_rep (rep_nat (k := 0) (by norm_num))
    have h1 : (tf - t).x = fin 0 := by
      change (ofX (tf.x - t.x)).x = _
      rw [htf, ht, sub_fin, sub_self]; exact r0
    change (ofX (t.x + (tf - t).x)).x = _
    rw [h1, ht, htf, add_fin, add_zero]
    exact round64_rep he.rep

end
end Cyphus
