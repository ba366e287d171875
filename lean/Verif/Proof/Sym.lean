import Verif.Model.Sym
import Verif.Proof.Bytes
/-! Lemmas about `Verif.Model.Sym`. -/
set_option linter.unusedSimpArgs false
set_option linter.unusedSectionVars false
set_option autoImplicit false
namespace Abe

namespace Gcm
variable (g : Gcm) (key iv : Bytes)

theorem crypt_length : ∀ (b : Bytes) (p : Nat), (g.crypt key iv p b).length = b.length
  | [], _ => rfl
  | _ :: xs, p => by simp only [crypt, List.length_cons, crypt_length xs (p + 1)]

theorem crypt_append : ∀ (a b : Bytes) (p : Nat),
    g.crypt key iv p (a ++ b) = g.crypt key iv p a ++ g.crypt key iv (p + a.length) b
  | [], _, _ => rfl
  | x :: xs, b, p => by
    simp only [crypt, List.cons_append, crypt_append xs b (p + 1), List.length_cons,
      Nat.add_assoc, Nat.add_comm 1]

theorem crypt_crypt : ∀ (b : Bytes) (p : Nat), g.crypt key iv p (g.crypt key iv p b) = b
  | [], _ => rfl
  | x :: xs, p => by
    simp only [crypt, crypt_crypt xs (p + 1), UInt8.xor_assoc, UInt8.xor_self, UInt8.xor_zero]

theorem crypt_eq_nil (b : Bytes) (p : Nat) : g.crypt key iv p b = [] ↔ b = [] := by
  rw [← List.length_eq_zero_iff, crypt_length, List.length_eq_zero_iff]

end Gcm

namespace GcmCtx

theorem init_ok (key iv : Bytes) (hk : 32 ≤ key.length) (hiv : iv ≠ []) :
    init key iv = .ok { key := key.take 32, iv := iv } := by
  rw [init, if_neg]
  · rfl
  · rintro (h | h)
    · simp only [symKeyBytes] at h; omega
    · exact hiv h

theorem init_short (key iv : Bytes) (hk : key.length < 32) : init key iv = .ub := by
  exact if_pos (Or.inl hk)

theorem setTag_ok (c : GcmCtx) (tag : Bytes) (h : 1 ≤ tag.length ∧ tag.length ≤ 16) :
    c.setTag tag = { c with tag := some tag } := if_pos h

end GcmCtx

namespace AuthEnc

/-- What `encrypt` computes once associated data has been set. -/
theorem encrypt_eq (g : Gcm) (key aad iv pt : Bytes) (hk : 32 ≤ key.length) (hiv : iv ≠ []) :
    encrypt g { key := key, aad := aad, aadSet := true } iv pt =
      .ok (g.crypt (key.take 32) iv 0 pt, g.mac (key.take 32) iv aad (g.crypt (key.take 32) iv 0 pt)) := by
  rw [encrypt, GcmCtx.init_ok _ _ hk hiv]
  rfl

theorem decrypt_eq (g : Gcm) (key aad iv ct tag : Bytes) (hk : 32 ≤ key.length) (hiv : iv ≠ [])
    (ht : tag.length = 16) :
    decrypt g { key := key, aad := aad, aadSet := true } iv ct tag =
      .ok (if g.mac (key.take 32) iv aad ct = tag then some (g.crypt (key.take 32) iv 0 ct) else none) := by
  rw [decrypt, if_neg (by simp [aesBlock, ht]), GcmCtx.init_ok _ _ hk hiv]
  have h3 : (g.mac (key.take 32) iv aad ct).take tag.length = g.mac (key.take 32) iv aad ct :=
    List.take_of_length_le (Nat.le_of_eq (by rw [g.mac_length, ht]))
  rw [Res.ok_bind, GcmCtx.setTag_ok _ _ (by omega)]
  show Res.ok (if ((g.mac (key.take 32) iv aad ct).take tag.length == tag) = true then
    some (g.crypt (key.take 32) iv 0 ct) else none) = _
  rw [h3]
  simp only [beq_iff_eq]

end AuthEnc
end Abe
namespace Abe

theorem BS.smartUnpack_at (p b s : Bytes) (h0 : b ≠ []) (h : b.length < 2 ^ 32) :
    BS.smartUnpack (p ++ (BS.smartPack [] b ++ s)) p.length = .ok (b, (p ++ BS.smartPack [] b).length) := by
  have := BS.smartUnpack_shift p (BS.smartPack [] b ++ s) 0
  rw [BS.smartUnpack_zero b s h0 h, Nat.add_zero] at this
  rw [this, Res.ok_bind, List.length_append]

theorem BS.smartPack_nil (p : Bytes) : BS.smartPack p [] = p := by simp [BS.smartPack]

theorem BS.smartUnpack_end (p : Bytes) : BS.smartUnpack p p.length = .throw .outOfRange := by
  simp [BS.smartUnpack, BS.atR]

theorem asRuntime_defined {α : Type} (r : Res α) : (asRuntime r).Defined ↔ r.Defined := by
  cases r with
  | throw e => cases e <;> simp [asRuntime, Res.Defined]
  | _ => simp [asRuntime, Res.Defined]

theorem asRuntime_ok {α : Type} (r : Res α) (a : α) : asRuntime r = .ok a ↔ r = .ok a := by
  cases r with
  | throw e => cases e <;> simp [asRuntime]
  | _ => simp [asRuntime]

/-- The associated data a handle works with. -/
def aadOf (auth : Bytes) : Bytes := if auth = [] then List.replicate 16 0 else auth

theorem SymHandle.cipher_eq (h : SymHandle) :
    h.cipher = { key := h.key, aad := aadOf h.auth, aadSet := true } := by
  rw [SymHandle.cipher, aadOf]
  by_cases h0 : h.auth = []
  · rw [if_pos h0, if_neg (by rw [h0]; simp)]; rfl
  · have : 0 < h.auth.length := List.length_pos_iff.mpr h0
    rw [if_neg h0, if_pos this, AuthEnc.setAad, if_neg (by omega)]

theorem AuthEnc.set_eq (e : AuthEnc) (auth : Bytes) :
    (if 0 < auth.length then e.setAad auth else e.setAadPtr none) =
      { key := e.key, aad := aadOf auth, aadSet := true } := by
  rw [aadOf]
  by_cases h0 : auth = []
  · rw [if_pos h0, if_neg (by rw [h0]; simp)]; rfl
  · have : 0 < auth.length := List.length_pos_iff.mpr h0
    rw [if_neg h0, if_pos this, AuthEnc.setAad, if_neg (by omega)]

end Abe
