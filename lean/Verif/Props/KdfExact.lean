import Verif.Props.Kdf
/-!
# What key derivation answers for all inputs and all hash lengths: C162

The specification is `Kdf.block` (block `n` of the concatenation KDF). `roundUp` is the size of the array.
-/
set_option linter.unusedSimpArgs false
set_option linter.unusedSectionVars false
set_option autoImplicit false
namespace Abe
namespace Kdf

/-- The least multiple of `L` that is at least `n`. -/
def roundUp (n L : Nat) : Nat := (n + L - 1) / L * L

/-- Blocks from 31 bytes on: only the last one may reach one byte beyond its place. -/
theorem deriveLoop_get31 (md : Digest) (L : Nat) (hL : 31 ≤ L) (rest : Bytes) :
    ∀ (n : Nat) (count : UInt32) (ptr : Nat) (arr : Bytes), ptr + n * L + 1 ≤ arr.length → count.toNat + n < 2 ^ 32 →
    ∃ out, deriveLoop md L n count (BS.be32 count.toNat ++ rest) ptr arr = .ok out ∧ out.length = arr.length ∧
      ∀ j, j < ptr + n * L → out[j]? =
        if ptr ≤ j ∧ (j - ptr) % L < 32 then (md.fn (BS.be32 (count.toNat + (j - ptr) / L) ++ rest))[(j - ptr) % L]?
        else arr[j]? := by
  intro n
  induction n with
  | zero =>
    intro count ptr arr _ _
    refine ⟨arr, rfl, rfl, fun j hj => ?_⟩
    rw [if_neg (by omega)]
  | succ n ih =>
    intro count ptr arr hlen hc
    have hn : (n + 1) * L = n * L + L := by rw [Nat.succ_mul]
    have hm : (md.fn (BS.be32 count.toNat ++ rest)).length = 32 := md.length _
    obtain ⟨a1, h1⟩ : ∃ a1, poke arr ptr (md.fn (BS.be32 count.toNat ++ rest)) = .ok a1 := by
      unfold poke
      rw [if_pos (by omega)]
      exact ⟨_, rfl⟩
    have hc1 : (count + 1).toNat = count.toNat + 1 := by
      rw [UInt32.toNat_add]
      simp only [UInt32.toNat_ofNat, UInt32.reduceToNat]
      omega
    have hl1 := poke_length h1
    obtain ⟨out, h2, h2l, h2g⟩ := ih (count + 1) (ptr + L) a1 (by omega) (by omega)
    refine ⟨out, ?_, by omega, fun j hj => ?_⟩
    · simp only [deriveLoop, h1, Res.ok_bind, setFirst]
      exact h2
    · rw [h2g j (by omega)]
      by_cases hj2 : ptr + L ≤ j
      · have e : j - ptr = (j - (ptr + L)) + L := by omega
        have e1 : (j - ptr) % L = (j - (ptr + L)) % L := by rw [e, Nat.add_mod_right]
        have e2 : (j - ptr) / L = (j - (ptr + L)) / L + 1 := by rw [e, Nat.add_div_right _ (by omega)]
        rw [e1, e2, hc1]
        by_cases hr : (j - (ptr + L)) % L < 32
        · rw [if_pos (by omega), if_pos (by omega),
            show count.toNat + 1 + (j - (ptr + L)) / L = count.toNat + ((j - (ptr + L)) / L + 1) by omega]
        · have := Nat.mod_lt (j - (ptr + L)) (show 0 < L by omega)
          rw [if_neg (by omega), if_neg (by omega), poke_get h1, if_neg (by omega)]
      · rw [if_neg (by omega), poke_get h1, hm]
        by_cases h4 : ptr ≤ j
        · have e1 : (j - ptr) % L = j - ptr := Nat.mod_eq_of_lt (by omega)
          have e2 : (j - ptr) / L = 0 := Nat.div_eq_of_lt (by omega)
          rw [e1, e2]
          by_cases h3 : j - ptr < 32
          · rw [if_pos (by omega), if_pos (by omega)]; rfl
          · rw [if_neg (by omega), if_neg (by omega)]
        · rw [if_neg (by omega), if_neg (by omega)]

/-- Shorter blocks: the last one is written beyond the array. -/
theorem deriveLoop_ub (md : Digest) (L : Nat) (hL : L < 31) :
    ∀ (n : Nat) (count : UInt32) (b : Bytes) (ptr : Nat) (arr : Bytes), arr.length = ptr + (n + 1) * L + 1 →
    deriveLoop md L (n + 1) count b ptr arr = .ub := by
  intro n
  induction n with
  | zero =>
    intro count b ptr arr hl
    have hm : (md.fn b).length = 32 := md.length _
    unfold deriveLoop poke
    rw [if_neg (by omega)]
    rfl
  | succ n ih =>
    intro count b ptr arr hl
    unfold deriveLoop
    cases h : poke arr ptr (md.fn b) with
    | ok a =>
      have := poke_length h
      rw [Res.ok_bind]
      exact ih _ _ _ _ (by rw [this, hl, Nat.succ_mul (n + 1)]; omega)
    | ub => rfl
    | throw e => unfold poke at h; split at h <;> cases h
    | abort => unfold poke at h; split at h <;> cases h

theorem roundUp_ge (n L : Nat) (hL : 0 < L) : n ≤ roundUp n L := by
  unfold roundUp
  have := Nat.div_add_mod (n + L - 1) L
  have h2 := Nat.mod_lt (n + L - 1) hL
  rw [Nat.mul_comm] at this
  omega

/-- The body of the function after its checks on the sizes. -/
theorem deriveKey_eq (md : Digest) (k : Kdf) (Z info : Bytes) (len : UInt32) (h0 : 0 < k.hashLen.toNat) :
    deriveKey md k Z len info =
      if k.maxInputLen.toNat < 5 + Z.length + info.length then .throw .invalidLength
      else if 2 ^ 31 ≤ roundUp len.toNat k.hashLen.toNat then .ub
      else deriveLoop md k.hashLen.toNat ((len.toNat + k.hashLen.toNat - 1) / k.hashLen.toNat) 1
          (BS.be32 (1 : UInt32).toNat ++ ([k.hashPrefix] ++ Z ++ info)) 0 (List.replicate (roundUp len.toNat k.hashLen.toNat + 1) 0) >>=
        fun arr => if arr.length < len.toNat / 8 then .ub else .ok (arr.take (len.toNat / 8)) := by
  have hbl : (BS.setFirstBytes [] 1 ++ [k.hashPrefix] ++ Z ++ info).length = 5 + Z.length + info.length := by
    simp [BS.setFirstBytes, BS.be32]; omega
  have hb : BS.setFirstBytes [] 1 ++ [k.hashPrefix] ++ Z ++ info = BS.be32 (1 : UInt32).toNat ++ ([k.hashPrefix] ++ Z ++ info) := by
    simp [BS.setFirstBytes]
  have hr : (len.toNat + k.hashLen.toNat - 1) / k.hashLen.toNat ≤ len.toNat := by
    rw [Nat.div_le_iff_le_mul (by omega)]
    have := Nat.le_mul_of_pos_right len.toNat (show 0 < k.hashLen.toNat by omega)
    omega
  have := len.toNat_lt
  unfold deriveKey roundUp
  simp only [hbl]
  rw [if_neg (by omega), if_neg (by omega), hb]

theorem C162_error (md : Digest) (k : Kdf) (Z info : Bytes) (len : UInt32) (e : Err) :
    deriveKey md k Z len info = .throw e ↔
      e = .invalidLength ∧ 0 < k.hashLen.toNat ∧ k.maxInputLen.toNat < 5 + Z.length + info.length := by
  constructor
  · intro h
    obtain ⟨h1, h2⟩ := C58_only_error md k Z info len e h
    refine ⟨h1, Nat.pos_of_ne_zero fun h0 => ?_, h2⟩
    unfold deriveKey at h
    rw [if_pos h0] at h
    cases h
  · rintro ⟨rfl, h0, h1⟩
    rw [deriveKey_eq md k Z info len h0, if_pos h1]

/-- The key, in all cases in which there is one. -/
theorem C162_key (md : Digest) (k : Kdf) (Z info : Bytes) (len : UInt32) (key : Bytes) :
    deriveKey md k Z len info = .ok key ↔
      0 < k.hashLen.toNat ∧ 5 + Z.length + info.length ≤ k.maxInputLen.toNat ∧ roundUp len.toNat k.hashLen.toNat < 2 ^ 31 ∧
      (len = 0 ∨ 31 ≤ k.hashLen.toNat) ∧ key.length = len.toNat / 8 ∧
      ∀ j, j < len.toNat / 8 → key[j]? =
        if j % k.hashLen.toNat < 32 then (block md k.hashPrefix Z info (j / k.hashLen.toNat + 1))[j % k.hashLen.toNat]?
        else some 0 := by
  by_cases h0 : k.hashLen.toNat = 0
  · unfold deriveKey
    rw [if_pos h0]
    constructor
    · intro h; cases h
    · rintro ⟨h, -⟩; omega
  have h0' : 0 < k.hashLen.toNat := Nat.pos_of_ne_zero h0
  rw [deriveKey_eq md k Z info len h0']
  by_cases h1 : k.maxInputLen.toNat < 5 + Z.length + info.length
  · rw [if_pos h1]
    constructor
    · intro h; cases h
    · rintro ⟨-, h, -⟩; omega
  rw [if_neg h1]
  by_cases h2 : 2 ^ 31 ≤ roundUp len.toNat k.hashLen.toNat
  · rw [if_pos h2]
    constructor
    · intro h; cases h
    · rintro ⟨-, -, h, -⟩; omega
  rw [if_neg h2]
  have hge := roundUp_ge len.toNat _ h0'
  by_cases h3 : len = 0
  · subst h3
    have hz : (0 + k.hashLen.toNat - 1) / k.hashLen.toNat = 0 := Nat.div_eq_of_lt (by omega)
    simp only [UInt32.toNat_zero, hz, deriveLoop, Res.ok_bind, Nat.zero_div, List.take_zero, Nat.not_lt_zero, if_false]
    constructor
    · intro h
      cases h
      exact ⟨h0', by omega, by simpa using h2, .inl trivial, rfl, fun j hj => hj.elim⟩
    · rintro ⟨-, -, -, -, h, -⟩
      rw [List.length_eq_zero_iff.mp h]
  have hlen : 0 < len.toNat := Nat.pos_of_ne_zero fun h => h3 (UInt32.toNat_inj.mp (by simpa using h))
  by_cases h4 : k.hashLen.toNat < 31
  · obtain ⟨n, hn⟩ : ∃ n, (len.toNat + k.hashLen.toNat - 1) / k.hashLen.toNat = n + 1 :=
      ⟨_, (Nat.succ_pred_eq_of_pos (Nat.div_pos (by omega) h0')).symm⟩
    have hsz : roundUp len.toNat k.hashLen.toNat = (n + 1) * k.hashLen.toNat := by unfold roundUp; rw [hn]
    rw [hn, deriveLoop_ub md _ h4 n _ _ _ _ (by rw [List.length_replicate, hsz]; omega)]
    constructor
    · intro h; cases h
    · rintro ⟨-, -, -, h, -⟩
      rcases h with h | h
      · exact absurd h h3
      · omega
  have hru : roundUp len.toNat k.hashLen.toNat =
      (len.toNat + k.hashLen.toNat - 1) / k.hashLen.toNat * k.hashLen.toNat := rfl
  obtain ⟨arr, e1, e2, e3⟩ := deriveLoop_get31 md k.hashLen.toNat (by omega) ([k.hashPrefix] ++ Z ++ info)
    ((len.toNat + k.hashLen.toNat - 1) / k.hashLen.toNat) 1 0 (List.replicate (roundUp len.toNat k.hashLen.toNat + 1) 0)
    (by rw [List.length_replicate, hru]; omega)
    (by
      have := Nat.le_mul_of_pos_right ((len.toNat + k.hashLen.toNat - 1) / k.hashLen.toNat) h0'
      simp only [UInt32.reduceToNat]; omega)
  rw [List.length_replicate] at e2
  rw [e1, Res.ok_bind, if_neg (by omega)]
  have hg : ∀ j, j < len.toNat / 8 → (arr.take (len.toNat / 8))[j]? =
        if j % k.hashLen.toNat < 32 then (block md k.hashPrefix Z info (j / k.hashLen.toNat + 1))[j % k.hashLen.toNat]?
        else some 0 := by
    intro j hj
    rw [List.getElem?_take_of_lt hj, e3 j (by rw [← hru]; omega)]
    simp only [Nat.zero_add, Nat.sub_zero, Nat.zero_le, true_and]
    by_cases h5 : j % k.hashLen.toNat < 32
    · rw [if_pos h5, if_pos h5]
      simp only [block, UInt32.reduceToNat, List.append_assoc, Nat.add_comm]
    · rw [if_neg h5, if_neg h5, List.getElem?_replicate, if_pos (by omega)]
  have hl : (arr.take (len.toNat / 8)).length = len.toNat / 8 := by rw [List.length_take]; omega
  constructor
  · intro h
    cases h
    exact ⟨h0', by omega, by omega, .inr (by omega), hl, hg⟩
  · rintro ⟨-, -, -, -, hkl, hkg⟩
    congr 1
    refine List.ext_getElem? fun j => ?_
    by_cases hj : j < len.toNat / 8
    · rw [hg j hj, hkg j hj]
    · rw [List.getElem?_eq_none (by omega), List.getElem?_eq_none (by omega)]

/-- The cases without an answer. -/
theorem C162_undefined (md : Digest) (k : Kdf) (Z info : Bytes) (len : UInt32) :
    deriveKey md k Z len info = .ub ↔
      k.hashLen = 0 ∨ 5 + Z.length + info.length ≤ k.maxInputLen.toNat ∧
        (2 ^ 31 ≤ roundUp len.toNat k.hashLen.toNat ∨ len ≠ 0 ∧ k.hashLen.toNat < 31) := by
  have hz : k.hashLen = 0 ↔ k.hashLen.toNat = 0 := by
    rw [← UInt32.toNat_inj]; rfl
  rw [hz]
  cases h : deriveKey md k Z len info with
  | throw e =>
    obtain ⟨-, h1, h2⟩ := (C162_error md k Z info len e).mp h
    constructor
    · intro h; cases h
    · rintro (h | ⟨h, -⟩) <;> omega
  | ok key =>
    obtain ⟨h1, h2, h3, h4, -⟩ := (C162_key md k Z info len key).mp h
    constructor
    · intro h; cases h
    · rintro (h | ⟨-, h | ⟨h, h'⟩⟩)
      · omega
      · omega
      · rcases h4 with h4 | h4
        · exact absurd h4 h
        · omega
  | abort =>
    exfalso
    by_cases h0 : k.hashLen.toNat = 0
    · unfold deriveKey at h
      rw [if_pos h0] at h
      cases h
    have hloop : ∀ (n : Nat) (c : UInt32) (b : Bytes) (p : Nat) (arr : Bytes), deriveLoop md k.hashLen.toNat n c b p arr ≠ .abort := by
      intro n
      induction n with
      | zero => intro c b p arr h; cases h
      | succ n ih =>
        intro c b p arr h
        unfold deriveLoop poke at h
        split at h
        · exact ih _ _ _ _ h
        · cases h
    rw [deriveKey_eq md k Z info len (Nat.pos_of_ne_zero h0)] at h
    split at h
    · cases h
    · split at h
      · cases h
      · revert h
        generalize hd : deriveLoop _ _ _ _ _ _ _ = r
        cases r with
        | ok a => rw [Res.ok_bind]; intro h; split at h <;> cases h
        | throw e => intro h; cases h
        | ub => intro h; cases h
        | abort => exact absurd hd (hloop _ _ _ _ _)
  | ub =>
    refine ⟨fun _ => ?_, fun _ => rfl⟩
    by_cases h0 : k.hashLen.toNat = 0
    · exact .inl h0
    have h0' := Nat.pos_of_ne_zero h0
    have hge := roundUp_ge len.toNat _ h0'
    by_cases h1 : k.maxInputLen.toNat < 5 + Z.length + info.length
    · rw [(C162_error md k Z info len .invalidLength).mpr ⟨rfl, h0', h1⟩] at h
      cases h
    refine .inr ⟨by omega, ?_⟩
    by_cases h2 : 2 ^ 31 ≤ roundUp len.toNat k.hashLen.toNat
    · exact .inl h2
    by_cases h3 : len ≠ 0 ∧ k.hashLen.toNat < 31
    · exact .inr h3
    exfalso
    have hone : len = 0 ∨ 31 ≤ k.hashLen.toNat := by
      by_cases e : len = 0
      · exact .inl e
      · exact .inr (Nat.not_lt.mp fun x => h3 ⟨e, x⟩)
    -- the bytes the other theorem asks for
    have hbyte : ∀ j, ∃ b, (if j % k.hashLen.toNat < 32 then
        (block md k.hashPrefix Z info (j / k.hashLen.toNat + 1))[j % k.hashLen.toNat]? else some 0) = some b := by
      intro j
      split
      · rename_i hj
        have : (block md k.hashPrefix Z info (j / k.hashLen.toNat + 1)).length = 32 := md.length _
        exact ⟨_, List.getElem?_eq_getElem (by omega)⟩
      · exact ⟨0, rfl⟩
    obtain ⟨f, hf⟩ := Classical.skolem.mp hbyte
    have := (C162_key md k Z info len ((List.range (len.toNat / 8)).map f)).mpr ⟨h0', by omega, by omega, hone, by simp, fun j hj => by
      rw [hf, List.getElem?_map, List.getElem?_range hj]; rfl⟩
    rw [this] at h
    cases h

/-! 31 bytes are enough, 30 are not; no bits are always answered. -/

example : deriveKey exDigest ({ hashLen := 31 } : Kdf) [1, 2] 256 [3] = .ok (List.replicate 32 8) := by decide +kernel
example : deriveKey exDigest ({ hashLen := 30 } : Kdf) [1, 2] 256 [3] = .ub := by decide +kernel
example : deriveKey exDigest ({ hashLen := 30 } : Kdf) [1, 2] 0 [3] = .ok [] := by decide +kernel
example : deriveKey exDigest ({ hashLen := 0 } : Kdf) [1, 2] 0 [3] = .ub := by decide +kernel
example : deriveKey exDigest ({ maxInputLen := 7 } : Kdf) [1, 2] 0 [3] = .throw .invalidLength := by decide +kernel

end Kdf
end Abe
