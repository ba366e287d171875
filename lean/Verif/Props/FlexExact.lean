import Verif.Props.Flex
/-!
# Comparisons with numbers without width: what each operator means, and when it is right (C168)
-/
set_option linter.unusedSimpArgs false
set_option linter.unusedSectionVars false
set_option autoImplicit false
namespace Abe
namespace Flex

/-- The policy is built, and an attribute list that gives `base` the value `v` without width satisfies it iff `P v`. -/
def Means (r : Res (TNode × Drv)) (base : Bytes) (P : Nat → Prop) : Prop :=
  ∃ t d', r = .ok (t, d') ∧ ∀ A v, Gives A base v → (sat A t = true ↔ P v.toNat)

theorem means_of {r : Res (TNode × Drv)} {base : Bytes} {P : Nat → Prop}
    (h : ∀ A v, Gives A base v → ∃ t d', r = .ok (t, d') ∧ (sat A t = true ↔ P v.toNat)) : Means r base P := by
  obtain ⟨t, d', h1, -⟩ := h (assignStmt base ⟨0, 0⟩) 0 (fun s _ => Iff.rfl)
  refine ⟨t, d', h1, fun A v hA => ?_⟩
  obtain ⟨t2, d2, h2, hs⟩ := h A v hA
  rw [h1] at h2
  cases h2
  exact hs

theorem means_unique {r : Res (TNode × Drv)} {base : Bytes} {P Q : Nat → Prop} (h1 : Means r base P) (h2 : Means r base Q)
    (v : UInt32) : P v.toNat ↔ Q v.toNat := by
  obtain ⟨t, d, e, h⟩ := h1
  obtain ⟨t', d', e', h'⟩ := h2
  rw [e] at e'
  cases e'
  have g : Gives (assignStmt base ⟨v, 0⟩) base v := fun s _ => Iff.rfl
  exact (h _ v g).symm.trans (h' _ v g)

theorem Means.congr {r : Res (TNode × Drv)} {base : Bytes} {P Q : Nat → Prop} (h : Means r base P)
    (hpq : ∀ v : UInt32, P v.toNat ↔ Q v.toNat) : Means r base Q := by
  obtain ⟨t, d, e, h⟩ := h
  exact ⟨t, d, e, fun A v hA => (h A v hA).trans (hpq v)⟩

theorem not_means_ub {base : Bytes} {P : Nat → Prop} : ¬ Means .ub base P := by
  rintro ⟨t, d, e, -⟩; cases e

theorem runEnd_zero : runEnd false 0 32 0 = none := by decide +kernel
theorem runEnd_ones : runEnd true 4294967295 32 0 = none := by decide +kernel

theorem lt_zero (d : Drv) (base : Bytes) (n : UInt32) (hn : n.toNat = 0) : ltPolicy d base ⟨n, 0⟩ = .ub := by
  rw [ltPolicy, cmp_eq]
  unfold bitMarkerList
  rw [hn, runEnd_zero]

theorem gt_max (d : Drv) (base : Bytes) (n : UInt32) (hn : n.toNat = 2 ^ 32 - 1) : gtPolicy d base ⟨n, 0⟩ = .ub := by
  rw [gtPolicy, cmp_eq]
  unfold bitMarkerList
  rw [hn, show 2 ^ 32 - 1 = 4294967295 from by norm_num, runEnd_ones]

theorem lt_means (d : Drv) (base : Bytes) (hb : NameOk base) (n : UInt32) (hn : n.toNat ≠ 0) :
    Means (ltPolicy d base ⟨n, 0⟩) base (fun v => v % 2 ^ bitsFor n.toNat < n.toNat) :=
  means_of fun A v hA => C86_less_than_partial d base hb n (by omega) A v hA

theorem gt_means (d : Drv) (base : Bytes) (hb : NameOk base) (n : UInt32) (hn : n.toNat ≠ 2 ^ 32 - 1) :
    Means (gtPolicy d base ⟨n, 0⟩) base (fun v => n.toNat < v % 2 ^ bitsForGt n.toNat) :=
  means_of fun A v hA => C86_greater_than_partial d base hb n (by have := n.toNat_lt; omega) A v hA

theorem le_is (d : Drv) (base : Bytes) (n : UInt32) : lePolicy d base ⟨n, 0⟩ = ltPolicy d base ⟨n + 1, 0⟩ := rfl
theorem ge_is (d : Drv) (base : Bytes) (n : UInt32) : gePolicy d base ⟨n, 0⟩ = gtPolicy d base ⟨n - 1, 0⟩ := rfl

theorem succ_toNat (n : UInt32) : (n + 1).toNat = if n.toNat = 2 ^ 32 - 1 then 0 else n.toNat + 1 := by
  have h := n.toNat_lt
  rw [UInt32.toNat_add, show (1 : UInt32).toNat = 1 from rfl]
  split <;> omega

theorem pred_toNat (n : UInt32) : (n - 1).toNat = if n.toNat = 0 then 2 ^ 32 - 1 else n.toNat - 1 := by
  have h := n.toNat_lt
  rw [UInt32.toNat_sub, show (1 : UInt32).toNat = 1 from rfl]
  split <;> omega

/-- `<` and `>`: building the policy is undefined iff no number is on that side; otherwise only the low bits in which the
number of the policy fits are compared. -/
theorem C168_strict (d : Drv) (base : Bytes) (hb : NameOk base) (n : UInt32) :
    (n.toNat = 0 → ltPolicy d base ⟨n, 0⟩ = .ub) ∧
    (n.toNat ≠ 0 → Means (ltPolicy d base ⟨n, 0⟩) base (fun v => v % 2 ^ bitsFor n.toNat < n.toNat)) ∧
    (n.toNat = 2 ^ 32 - 1 → gtPolicy d base ⟨n, 0⟩ = .ub) ∧
    (n.toNat ≠ 2 ^ 32 - 1 → Means (gtPolicy d base ⟨n, 0⟩) base (fun v => n.toNat < v % 2 ^ bitsForGt n.toNat)) :=
  ⟨lt_zero d base n, lt_means d base hb n, gt_max d base n, gt_means d base hb n⟩

/-- `≤` and `≥`: the number is changed by one first, and wraps. So the policies that every number satisfies are
undefined; otherwise the low bits are compared in which the changed number fits. -/
theorem C168_weak (d : Drv) (base : Bytes) (hb : NameOk base) (n : UInt32) :
    (n.toNat = 2 ^ 32 - 1 → lePolicy d base ⟨n, 0⟩ = .ub) ∧
    (n.toNat ≠ 2 ^ 32 - 1 →
      Means (lePolicy d base ⟨n, 0⟩) base (fun v => v % 2 ^ bitsFor (n.toNat + 1) ≤ n.toNat)) ∧
    (n.toNat = 0 → gePolicy d base ⟨n, 0⟩ = .ub) ∧
    (n.toNat ≠ 0 → Means (gePolicy d base ⟨n, 0⟩) base (fun v => n.toNat ≤ v % 2 ^ bitsForGt (n.toNat - 1))) := by
  have hs := succ_toNat n
  have hp := pred_toNat n
  have h32 := n.toNat_lt
  refine ⟨fun h => ?_, fun h => ?_, fun h => ?_, fun h => ?_⟩
  · rw [if_pos h] at hs
    rw [le_is]; exact lt_zero d base _ hs
  · rw [if_neg h] at hs
    rw [le_is]
    refine (lt_means d base hb (n + 1) (by omega)).congr fun v => ?_
    rw [hs]; exact Nat.lt_succ_iff
  · rw [if_pos h] at hp
    rw [ge_is]; exact gt_max d base _ hp
  · rw [if_neg h] at hp
    rw [ge_is]
    refine (gt_means d base hb (n - 1) (by omega)).congr fun v => ?_
    rw [hp]; omega

theorem lt_right {n : Nat} (hn : n ≠ 0) :
    (∀ v : UInt32, v.toNat % 2 ^ bitsFor n < n ↔ v.toNat < n) ↔ 65536 ≤ n := by
  constructor
  · intro h
    by_contra hc
    have e : ∃ w : UInt32, w.toNat = 2 ^ bitsFor n ∧ n ≤ w.toNat := by
      unfold bitsFor
      split
      · exact ⟨4, rfl, by show n ≤ 4; omega⟩
      · split
        · exact ⟨16, rfl, by show n ≤ 16; omega⟩
        · split
          · exact ⟨256, rfl, by show n ≤ 256; omega⟩
          · rw [if_pos (by omega)]
            exact ⟨65536, rfl, by show n ≤ 65536; omega⟩
    obtain ⟨w, hw, hle⟩ := e
    have := (h w).mp (by rw [hw, Nat.mod_self]; omega)
    omega
  · intro h v
    have e : bitsFor n = 32 := by
      unfold bitsFor
      rw [if_neg (by omega), if_neg (by omega), if_neg (by omega), if_neg (by omega)]
    rw [e, Nat.mod_eq_of_lt v.toNat_lt]

theorem gt_right {n : Nat} (hn : n < 2 ^ 32 - 1) :
    (∀ v : UInt32, n < v.toNat % 2 ^ bitsForGt n ↔ n < v.toNat) ↔ 65536 ≤ n := by
  constructor
  · intro h
    by_contra hc
    have e : ∃ w : UInt32, w.toNat % 2 ^ bitsForGt n = 0 ∧ n < w.toNat := by
      refine ⟨131072, ?_, by show n < 131072; omega⟩
      have h1 : bitsForGt n ≤ 17 := by
        unfold bitsForGt
        have : bitsFor n ≤ 16 := by unfold bitsFor; split <;> [omega; split <;> [omega; split <;> [omega; rw [if_pos (by omega)]]]]
        split <;> omega
      show 131072 % 2 ^ bitsForGt n = 0
      apply Nat.mod_eq_zero_of_dvd
      exact (show (131072 : Nat) = 2 ^ 17 from by norm_num) ▸ Nat.pow_dvd_pow 2 h1
    obtain ⟨w, hw, hlt⟩ := e
    have := (h w).mpr hlt
    omega
  · intro h v
    have e : bitsFor n = 32 := by
      unfold bitsFor
      rw [if_neg (by omega), if_neg (by omega), if_neg (by omega), if_neg (by omega)]
    have e2 : bitsForGt n = 32 := by
      unfold bitsForGt
      rw [e, if_neg (by omega)]
    rw [e2, Nat.mod_eq_of_lt v.toNat_lt]

/-- Exactly for which numbers the four operators are right for every value: from 65536 on (65535 for `≤`, 65537 for
`≥`), except where the code is undefined. -/
theorem C168_right (d : Drv) (base : Bytes) (hb : NameOk base) (n : UInt32) :
    (Means (ltPolicy d base ⟨n, 0⟩) base (fun v => v < n.toNat) ↔ 65536 ≤ n.toNat) ∧
    (Means (gtPolicy d base ⟨n, 0⟩) base (fun v => n.toNat < v) ↔ 65536 ≤ n.toNat ∧ n.toNat ≠ 2 ^ 32 - 1) ∧
    (Means (lePolicy d base ⟨n, 0⟩) base (fun v => v ≤ n.toNat) ↔ 65535 ≤ n.toNat ∧ n.toNat ≠ 2 ^ 32 - 1) ∧
    (Means (gePolicy d base ⟨n, 0⟩) base (fun v => n.toNat ≤ v) ↔ 65537 ≤ n.toNat) := by
  have h32 := n.toNat_lt
  obtain ⟨a1, a2, a3, a4⟩ := C168_strict d base hb n
  obtain ⟨b1, b2, b3, b4⟩ := C168_weak d base hb n
  have iff_of : ∀ {r : Res (TNode × Drv)} {P Q : Nat → Prop}, Means r base P →
      (Means r base Q ↔ ∀ v : UInt32, P v.toNat ↔ Q v.toNat) := fun hP =>
    ⟨fun hQ => means_unique hP hQ, fun h => hP.congr h⟩
  refine ⟨?_, ?_, ?_, ?_⟩
  · by_cases h : n.toNat = 0
    · rw [a1 h]
      exact ⟨fun h' => absurd h' not_means_ub, fun h' => by omega⟩
    · rw [iff_of (a2 h)]; exact lt_right h
  · by_cases h : n.toNat = 2 ^ 32 - 1
    · rw [a3 h]
      exact ⟨fun h' => absurd h' not_means_ub, fun h' => absurd h h'.2⟩
    · rw [iff_of (a4 h), gt_right (by omega)]
      exact ⟨fun h' => ⟨h', h⟩, fun h' => h'.1⟩
  · by_cases h : n.toNat = 2 ^ 32 - 1
    · rw [b1 h]
      exact ⟨fun h' => absurd h' not_means_ub, fun h' => absurd h h'.2⟩
    · rw [iff_of (b2 h)]
      have key := lt_right (n := n.toNat + 1) (by omega)
      simp only [Nat.lt_succ_iff] at key
      rw [key]
      exact ⟨fun h' => ⟨by omega, h⟩, fun h' => by omega⟩
  · by_cases h : n.toNat = 0
    · rw [b3 h]
      exact ⟨fun h' => absurd h' not_means_ub, fun h' => by omega⟩
    · rw [iff_of (b4 h)]
      have key := gt_right (n := n.toNat - 1) (by omega)
      have e : ∀ k, n.toNat - 1 < k ↔ n.toNat ≤ k := fun k => by omega
      simp only [e] at key
      rw [key]
      exact ⟨fun h' => by omega, fun h' => by omega⟩

/-- Ranges are the conjunctions of their ends. -/
theorem C168_ranges (d : Drv) (base : Bytes) (hb : NameOk base) (lo hi : UInt32) :
    (lo.toNat ≠ 2 ^ 32 - 1 → hi.toNat ≠ 0 → Means (rangePolicy d base ⟨lo, 0⟩ ⟨hi, 0⟩) base
      (fun v => lo.toNat < v % 2 ^ bitsForGt lo.toNat ∧ v % 2 ^ bitsFor hi.toNat < hi.toNat)) ∧
    (lo.toNat ≠ 0 → hi.toNat ≠ 2 ^ 32 - 1 → Means (rangeInclPolicy d base ⟨lo, 0⟩ ⟨hi, 0⟩) base
      (fun v => lo.toNat ≤ v % 2 ^ bitsForGt (lo.toNat - 1) ∧ v % 2 ^ bitsFor (hi.toNat + 1) ≤ hi.toNat)) ∧
    (lo.toNat = 2 ^ 32 - 1 ∨ hi.toNat = 0 → rangePolicy d base ⟨lo, 0⟩ ⟨hi, 0⟩ = .ub) ∧
    (lo.toNat = 0 ∨ hi.toNat = 2 ^ 32 - 1 → rangeInclPolicy d base ⟨lo, 0⟩ ⟨hi, 0⟩ = .ub) := by
  have both : ∀ {l : Res (TNode × Drv)} {r : Drv → Res (TNode × Drv)} {P Q : Nat → Prop}, Means l base P →
      (∀ d, Means (r d) base Q) →
      Means (l >>= fun l => r l.2 >>= fun r => .ok (.gate {} .and 2 [l.1, r.1], r.2)) base (fun v => P v ∧ Q v) := by
    rintro l r P Q ⟨t, d1, rfl, h1⟩ hr
    obtain ⟨t2, d2, e2, h2⟩ := hr d1
    refine ⟨.gate {} .and 2 [t, t2], d2, by simp only [Res.ok_bind, e2], fun A v hA => ?_⟩
    show _ ↔ P v.toNat ∧ Q v.toNat
    rw [← h1 A v hA, ← h2 A v hA]
    simp [sat, satL]
  refine ⟨fun h1 h2 => ?_, fun h1 h2 => ?_, ?_, ?_⟩
  · exact both ((C168_strict d base hb lo).2.2.2 h1) fun d => (C168_strict d base hb hi).2.1 h2
  · exact both ((C168_weak d base hb lo).2.2.2 h1) fun d => (C168_weak d base hb hi).2.1 h2
  · intro h
    by_cases hl : lo.toNat = 2 ^ 32 - 1
    · unfold rangePolicy; rw [gt_max d base lo hl]; rfl
    · obtain ⟨t, d1, e, -⟩ := gt_means d base hb lo hl
      unfold rangePolicy
      rw [e, Res.ok_bind]
      dsimp only
      rw [lt_zero d1 base hi (h.resolve_left hl)]; rfl
  · intro h
    by_cases hl : lo.toNat = 0
    · unfold rangeInclPolicy; rw [(C168_weak d base hb lo).2.2.1 hl]; rfl
    · obtain ⟨t, d1, e, -⟩ := (C168_weak d base hb lo).2.2.2 hl
      unfold rangeInclPolicy
      rw [e, Res.ok_bind]
      dsimp only
      rw [(C168_weak d1 base hb hi).1 (h.resolve_left hl)]; rfl

example : NameOk b!"a" ∧ (5 : UInt32).toNat ≠ 0 ∧ (5 : UInt32).toNat ≠ 2 ^ 32 - 1 := ⟨exName, by decide, by decide⟩

end Flex
end Abe
