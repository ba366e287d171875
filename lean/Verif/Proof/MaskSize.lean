import Verif.Model.MaskSize
import Mathlib.Data.Nat.Log
import Mathlib.Algebra.Order.Floor.Ring
import Mathlib.Algebra.Order.AbsoluteValue.Basic
import Mathlib.Data.Int.Log
import Mathlib.Tactic.Linarith
import Mathlib.Tactic.FieldSimp
import Mathlib.Tactic.Positivity
import Mathlib.Tactic.Ring
set_option linter.unusedSimpArgs false
set_option linter.unusedSectionVars false
set_option autoImplicit false
/-! # Rounded quotients, and the blocks of a mask -/
namespace Abe
namespace MaskSize

theorem representable_nat {n : Nat} (h : n < 2 ^ 53) : Representable (n : ℚ) := by
  refine ⟨n, 0, ?_, by simp⟩
  rw [abs_of_nonneg (by positivity)]
  exact_mod_cast h

/-- A value between `n` and the quotient, and strictly above `n`. -/
theorem between {a b n : Nat} (ha : a < 2 ^ 32) (hb : 0 < b) (hb' : b < 2 ^ 32) (hlo : (n : ℚ) < a / b) :
    ∃ z : ℚ, Representable z ∧ (n : ℚ) < z ∧ z ≤ a / b := by
  obtain ⟨k, hk1, hk2⟩ : ∃ k, b ≤ 2 ^ k ∧ 2 ^ k < 2 * b := by
    refine ⟨Nat.clog 2 b, Nat.le_pow_clog (by omega) b, ?_⟩
    by_cases h1 : 1 < b
    · have := Nat.pow_pred_clog_lt_self (b := 2) (by omega) h1
      have hpos : 0 < Nat.clog 2 b := Nat.clog_pos (by omega) h1
      obtain ⟨j, hj⟩ : ∃ j, Nat.clog 2 b = j + 1 := ⟨Nat.clog 2 b - 1, by omega⟩
      rw [hj] at this ⊢
      rw [Nat.pow_succ]
      simp only [Nat.pred_eq_sub_one, Nat.add_sub_cancel] at this
      omega
    · have : b = 1 := by omega
      subst this
      simp
  have hbq : (0 : ℚ) < b := by exact_mod_cast hb
  have h2k : (0 : ℚ) < 2 ^ (20 + k) := by positivity
  let m : Nat := (a * 2 ^ (20 + k)) / b
  have hm1 : (m : ℚ) ≤ a / b * 2 ^ (20 + k) := by
    have h : m * b ≤ a * 2 ^ (20 + k) := Nat.div_mul_le_self _ _
    have h : (m : ℚ) * b ≤ a * 2 ^ (20 + k) := by exact_mod_cast h
    rw [div_mul_eq_mul_div, le_div_iff₀ hbq]
    exact h
  have hm2 : (a : ℚ) / b * 2 ^ (20 + k) < m + 1 := by
    have h : a * 2 ^ (20 + k) < (m + 1) * b := by
      have := Nat.lt_div_mul_add (a := a * 2 ^ (20 + k)) hb
      simp only [Nat.add_mul, Nat.one_mul]
      exact this
    have h : (a : ℚ) * 2 ^ (20 + k) < (m + 1) * b := by exact_mod_cast h
    rw [div_mul_eq_mul_div, div_lt_iff₀ hbq]
    exact h
  have hm3 : m < 2 ^ 53 := by
    refine (Nat.div_lt_iff_lt_mul hb).2 ?_
    calc a * 2 ^ (20 + k) < 2 ^ 32 * 2 ^ (20 + k) := Nat.mul_lt_mul_of_pos_right ha (by positivity)
      _ = 2 ^ 52 * 2 ^ k := by rw [Nat.pow_add]; ring
      _ ≤ 2 ^ 52 * (2 * b) := Nat.mul_le_mul_left _ (by omega)
      _ = 2 ^ 53 * b := by ring
  refine ⟨m / 2 ^ (20 + k), ⟨m, -((20 + k : Nat) : ℤ), ?_, ?_⟩, ?_, ?_⟩
  · rw [abs_of_nonneg (by positivity)]
    exact_mod_cast hm3
  · rw [zpow_neg, zpow_natCast, div_eq_mul_inv]
    norm_cast
  · rw [lt_div_iff₀ h2k]
    -- the quotient is at least `1 / b` above `n`
    have h1 : n * b + 1 ≤ a := by
      have : (n : ℚ) * b < a := by rwa [lt_div_iff₀ hbq] at hlo
      have : n * b < a := by exact_mod_cast this
      omega
    have h1 : (n : ℚ) * b + 1 ≤ a := by exact_mod_cast h1
    have h2 : (b : ℚ) ≤ 2 ^ k := by exact_mod_cast hk1
    have h3 : (n : ℚ) + 1 / b ≤ a / b := by
      rw [le_div_iff₀ hbq, add_mul, one_div, inv_mul_cancel₀ (ne_of_gt hbq)]
      exact h1
    have h4 : (1 : ℚ) < 1 / b * 2 ^ (20 + k) := by
      rw [one_div, inv_mul_eq_div, lt_div_iff₀ hbq, one_mul, pow_add]
      have : (0 : ℚ) < 2 ^ k := by positivity
      nlinarith
    have h5 : ((n : ℚ) + 1 / b) * 2 ^ (20 + k) ≤ a / b * 2 ^ (20 + k) := mul_le_mul_of_nonneg_right h3 (le_of_lt h2k)
    rw [add_mul] at h5
    linarith
  · rw [div_le_iff₀ h2k]
    exact hm1

/-- Rounding up a rounded quotient is rounding up the quotient. -/
theorem ceil_nearest {a b : Nat} (ha : a < 2 ^ 32) (hb : 0 < b) (hb' : b < 2 ^ 32) {y : ℚ} (hy : Nearest (a / b) y) :
    ⌈y⌉ = ((a + b - 1) / b : Nat) := by
  have hbq : (0 : ℚ) < b := by exact_mod_cast hb
  obtain ⟨n, hn⟩ : ∃ n, n = (a + b - 1) / b := ⟨_, rfl⟩
  have hn1 : a ≤ n * b := by
    have := Nat.lt_div_mul_add (a := a + b - 1) hb
    rw [← hn] at this
    omega
  have hn2 : n * b ≤ a + b - 1 := hn ▸ Nat.div_mul_le_self _ _
  have hnlt : n < 2 ^ 53 := by
    have : n ≤ a + b - 1 := hn ▸ Nat.div_le_self _ _
    have : (2 : Nat) ^ 32 + 2 ^ 32 ≤ 2 ^ 53 := by decide
    omega
  have hx1 : (a : ℚ) / b ≤ n := by
    rw [div_le_iff₀ hbq]
    exact_mod_cast hn1
  obtain ⟨hrep, hmin⟩ := hy
  -- not above `n`
  have hy1 : y ≤ n := by
    by_contra hc
    have hc : (n : ℚ) < y := by linarith
    have := hmin n (representable_nat hnlt)
    rw [abs_of_nonpos (by linarith), abs_of_nonpos (by linarith)] at this
    linarith
  rw [← hn]
  rw [Int.ceil_eq_iff]
  refine ⟨?_, by exact_mod_cast hy1⟩
  by_cases hn0 : n = 0
  · have ha0 : a = 0 := by rw [hn0] at hn1; omega
    have h0 : y = 0 := by
      have := hmin 0 (by simpa using representable_nat (n := 0) (by decide))
      rw [ha0] at this
      simp only [Nat.cast_zero, zero_div, sub_self, abs_zero, zero_sub, abs_neg] at this
      exact abs_eq_zero.1 (le_antisymm this (abs_nonneg y))
    rw [hn0, h0]
    norm_num
  · have hlo : ((n - 1 : Nat) : ℚ) < a / b := by
      rw [lt_div_iff₀ hbq]
      have h : (n - 1) * b < a := by
        have : (n - 1) * b + b = n * b := by
          rw [← Nat.succ_mul]
          congr 1
          omega
        omega
      exact_mod_cast h
    obtain ⟨z, hz, hz1, hz2⟩ := between ha hb hb' hlo
    have hcast : ((n - 1 : Nat) : ℚ) = (n : ℚ) - 1 := by
      rw [Nat.cast_sub (by omega)]
      simp
    rw [hcast] at hz1
    by_contra hc
    have hc : y ≤ (n : ℚ) - 1 := by
      have : ¬ ((n : ℚ) - 1 < y) := by simpa using hc
      linarith
    have := hmin z hz
    rw [abs_of_nonneg (by linarith), abs_of_nonneg (by linarith)] at this
    linarith

theorem ceilDiv_eq (d : Fdiv) {a b : Nat} (ha : a < 2 ^ 32) (hb : 0 < b) (hb' : b < 2 ^ 32) : ceilDiv d a b = (a + b - 1) / b := by
  unfold ceilDiv
  rw [ceil_nearest ha hb hb' (d.nearest a b ha hb hb')]
  rfl

/-! ## There is such a division -/

/-- Every multiple of the unit `u` that brackets `x`: a representable value lies outside. -/
theorem outside {x : ℚ} (hx : 0 < x) {z : ℚ} (hz : Representable z) :
    z ≤ ⌊x / 2 ^ (Int.log 2 x - 52)⌋ * 2 ^ (Int.log 2 x - 52) ∨
    (⌊x / 2 ^ (Int.log 2 x - 52)⌋ + 1) * 2 ^ (Int.log 2 x - 52) ≤ z := by
  obtain ⟨m, e, hm, rfl⟩ := hz
  set E : ℤ := Int.log 2 x - 52 with hE
  set f : ℤ := ⌊x / 2 ^ E⌋ with hf
  have hu : (0 : ℚ) < 2 ^ E := zpow_pos (by norm_num) _
  by_contra hc
  rw [not_or, not_le, not_le] at hc
  obtain ⟨h1, h2⟩ := hc
  -- `f` is at least `2 ^ 52`
  have hlog : (2 : ℚ) ^ (Int.log 2 x) ≤ x := by
    have := Int.zpow_log_le_self (b := 2) (r := x) (by omega) hx
    simpa using this
  have hf52 : (2 : ℤ) ^ 52 ≤ f := by
    rw [hf, Int.le_floor, le_div_iff₀ hu]
    refine le_trans (le_of_eq ?_) hlog
    push_cast
    rw [hE, zpow_sub₀ (by norm_num)]
    norm_num
    ring
  have he : E ≤ e := by
    by_contra hlt
    have hlt : e ≤ E - 1 := by omega
    have h3 : (2 : ℚ) ^ e ≤ 2 ^ (E - 1) := zpow_le_zpow_right₀ (by norm_num) hlt
    have h4 : (m : ℚ) < 2 ^ 53 := by
      have : m < 2 ^ 53 := lt_of_le_of_lt (le_abs_self m) hm
      exact_mod_cast this
    have h5 : (2 : ℚ) ^ 52 * 2 ^ E ≤ f * 2 ^ E := mul_le_mul_of_nonneg_right (by exact_mod_cast hf52) (le_of_lt hu)
    have h6 : (0 : ℚ) < 2 ^ e := zpow_pos (by norm_num) _
    have h7 : (m : ℚ) * 2 ^ e < 2 ^ 53 * 2 ^ (E - 1) := by
      calc (m : ℚ) * 2 ^ e < 2 ^ 53 * 2 ^ e := mul_lt_mul_of_pos_right h4 h6
        _ ≤ 2 ^ 53 * 2 ^ (E - 1) := mul_le_mul_of_nonneg_left h3 (by positivity)
    have h8 : (2 : ℚ) ^ 53 * 2 ^ (E - 1) = 2 ^ 52 * 2 ^ E := by
      rw [zpow_sub₀ (by norm_num)]
      norm_num
      ring
    linarith
  obtain ⟨j, hj⟩ : ∃ j : Nat, e = E + j := ⟨(e - E).toNat, by omega⟩
  have hz : (m : ℚ) * 2 ^ e = ((m * 2 ^ j : ℤ) : ℚ) * 2 ^ E := by
    rw [hj, zpow_add₀ (by norm_num), zpow_natCast]
    push_cast
    ring
  rw [hz] at h1 h2
  have h1 := lt_of_mul_lt_mul_right h1 (le_of_lt hu)
  have h2 := lt_of_mul_lt_mul_right h2 (le_of_lt hu)
  have h1 : f < m * 2 ^ j := by exact_mod_cast h1
  have h2 : m * 2 ^ j < f + 1 := by exact_mod_cast h2
  omega

theorem representable_zero : Representable 0 := by simpa using representable_nat (n := 0) (by decide)

theorem exists_nearest (x : ℚ) (hx : 0 ≤ x) : ∃ y, Nearest x y := by
  rcases eq_or_lt_of_le hx with h0 | hx
  · subst h0
    exact ⟨0, representable_zero, fun z _ => by simp⟩
  · set E : ℤ := Int.log 2 x - 52 with hE
    set f : ℤ := ⌊x / 2 ^ E⌋ with hf
    have hu : (0 : ℚ) < 2 ^ E := zpow_pos (by norm_num) _
    have hlo : (f : ℚ) * 2 ^ E ≤ x := by
      have := Int.floor_le (x / 2 ^ E)
      rwa [le_div_iff₀ hu] at this
    have hhi : x < (f + 1) * 2 ^ E := by
      have := Int.lt_floor_add_one (x / 2 ^ E)
      rwa [div_lt_iff₀ hu] at this
    have hf0 : 0 ≤ f := Int.floor_nonneg.2 (div_nonneg (le_of_lt hx) (le_of_lt hu))
    have hf53 : f < 2 ^ 53 := by
      have hlog : x < (2 : ℚ) ^ (Int.log 2 x + 1) := by
        have := Int.lt_zpow_succ_log_self (b := 2) (by omega) x
        simpa using this
      rw [hf, Int.floor_lt, div_lt_iff₀ hu]
      refine lt_of_lt_of_eq hlog ?_
      push_cast
      rw [hE, zpow_sub₀ (by norm_num), zpow_add₀ (by norm_num)]
      norm_num
      ring
    have hr1 : Representable (f * 2 ^ E) := ⟨f, E, by rwa [abs_of_nonneg hf0], rfl⟩
    have hr2 : Representable ((f + 1) * 2 ^ E) := by
      by_cases hlt : f + 1 < 2 ^ 53
      · exact ⟨f + 1, E, by rwa [abs_of_nonneg (by omega)], by push_cast; ring⟩
      · have : f + 1 = 2 ^ 53 := by omega
        refine ⟨1, E + 53, by norm_num, ?_⟩
        have h : (f : ℚ) + 1 = 2 ^ 53 := by exact_mod_cast this
        rw [h, zpow_add₀ (by norm_num)]
        norm_num
        ring
    by_cases hcl : x - f * 2 ^ E ≤ (f + 1) * 2 ^ E - x
    · refine ⟨_, hr1, fun z hz => ?_⟩
      rw [abs_of_nonneg (by linarith)]
      rcases outside hx hz with h | h
      · rw [abs_of_nonneg (by linarith)]
        linarith
      · rw [abs_of_nonpos (by linarith)]
        linarith
    · refine ⟨_, hr2, fun z hz => ?_⟩
      rw [abs_of_nonpos (by linarith)]
      rcases outside hx hz with h | h
      · rw [abs_of_nonneg (by linarith)]
        linarith
      · rw [abs_of_nonpos (by linarith)]
        linarith

/-- A division of this kind. -/
noncomputable def someFdiv : Fdiv where
  div a b := (exists_nearest ((a : ℚ) / b) (by positivity)).choose
  nearest a b _ _ _ := (exists_nearest ((a : ℚ) / b) (by positivity)).choose_spec

/-! ## Blocks -/

theorem blocks_eq (md : Digest) (pre : UInt8) (buf : Bytes) : ∀ (n i : Nat) (arr : Bytes), 32 * i + 32 * n ≤ arr.length →
    blocks md pre buf n (UInt8.ofNat i) (32 * i) arr =
      .ok (arr.take (32 * i) ++ (List.range' i n).flatMap (Scheme.maskBlock md.fn pre buf) ++ arr.drop (32 * i + 32 * n))
  | 0, i, arr, h => by simp [blocks]
  | n + 1, i, arr, h => by
    have hl := md.length (UInt8.ofNat i :: pre :: buf)
    rw [blocks, Kdf.poke, if_pos (by omega), Res.ok_bind]
    have hc : UInt8.ofNat i + 1 = UInt8.ofNat (i + 1) := by
      apply UInt8.toNat_inj.1
      simp [UInt8.toNat_add]
    rw [hc, show 32 * i + 32 = 32 * (i + 1) by omega]
    have hlen : (arr.take (32 * i) ++ md.fn (UInt8.ofNat i :: pre :: buf)).length = 32 * (i + 1) := by
      rw [List.length_append, List.length_take, hl]
      omega
    rw [blocks_eq md pre buf n (i + 1) _ (by
      rw [List.length_append, hlen, List.length_drop, hl]
      omega)]
    congr 1
    rw [List.take_append_of_le_length (by omega), List.take_of_length_le (by omega), List.range'_succ, List.flatMap_cons, hl,
      List.drop_append, List.drop_eq_nil_of_le (by omega : (arr.take (32 * i) ++ md.fn (UInt8.ofNat i :: pre :: buf)).length ≤ _), hlen,
      List.drop_drop]
    simp only [List.append_assoc, List.nil_append, Scheme.maskBlock]
    congr 4
    omega

theorem maskBlocks_length (md : Digest) (pre : UInt8) (buf : Bytes) (n : Nat) :
    ((List.range' 0 n).flatMap (Scheme.maskBlock md.fn pre buf)).length = 32 * n := by
  rw [List.length_flatMap]
  have : (List.range' 0 n).map (fun i => (Scheme.maskBlock md.fn pre buf i).length) = List.replicate n 32 := by
    apply List.ext_getElem
    · simp
    · intro i h1 h2
      simp [Scheme.maskBlock, md.length]
  rw [this]
  simp [Nat.mul_comm]

/-- A mask has the length that was asked for. -/
theorem mask_length (md : Digest) (pre : UInt8) (buf : Bytes) (n : Nat) : (Scheme.hashFromBytes md.fn buf n pre).length = n := by
  unfold Scheme.hashFromBytes
  rw [List.range_eq_range', List.length_take, maskBlocks_length]
  omega

theorem hashFromBytes_eq (d : Fdiv) (stack : Nat) (md : Digest) (buf : Bytes) (target : UInt32) (pre : UInt8) :
    hashFromBytes d stack md buf target pre =
      if 2 ^ 31 ≤ (target.toNat + 31) / 32 * 32 ∨ stack < (target.toNat + 31) / 32 * 32 + 1 then .ub
      else .ok (Scheme.hashFromBytes md.fn buf target.toNat pre) := by
  have hc : ceilDiv d target.toNat 32 = (target.toNat + 31) / 32 :=
    ceilDiv_eq d (by have := target.toNat_lt; omega) (by omega) (by omega)
  unfold hashFromBytes Scheme.hashFromBytes
  simp only [hc]
  by_cases h1 : 2 ^ 31 ≤ (target.toNat + 31) / 32 * 32
  · rw [if_pos h1, if_pos (Or.inl h1)]
  · rw [if_neg h1]
    by_cases h2 : stack < (target.toNat + 31) / 32 * 32 + 1
    · rw [if_pos h2, if_pos (Or.inr h2)]
    · rw [if_neg h2, if_neg (by rintro (h | h) <;> contradiction)]
      have hb := blocks_eq md pre buf ((target.toNat + 31) / 32) 0 (List.replicate ((target.toNat + 31) / 32 * 32 + 1) 0)
        (by rw [List.length_replicate]; omega)
      have hfl := maskBlocks_length md pre buf ((target.toNat + 31) / 32)
      simp only [Nat.mul_zero, List.take_zero, List.nil_append, Nat.zero_add] at hb
      have hb' : blocks md pre buf ((target.toNat + 31) / 32) 0 0 (List.replicate ((target.toNat + 31) / 32 * 32 + 1) 0) = _ := hb
      rw [hb', Res.ok_bind, if_neg (by rw [List.length_append, hfl]; omega),
        List.take_append_of_le_length (by rw [hfl]; omega), List.range_eq_range']

end MaskSize
end Abe
