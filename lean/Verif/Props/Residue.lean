import Verif.Proof.Residue
import Verif.Props.KeyLength
/-!
# Secrets that stay in memory (C130)
-/
set_option linter.unusedSimpArgs false
set_option linter.unusedSectionVars false
set_option autoImplicit false
namespace Abe
namespace Residue
open Live Vec

/-- A growth rule: exactly what is needed, or the double. -/
def doubling : Grow := ⟨fun s n => max (2 * s) (s + n), fun s n => by omega⟩

/-! ### Wiping -/

/-- After `zeroize` a vector is empty, its elements are overwritten with zeros, and the block is clean iff the cells behind the
elements were. -/
theorem C130_zeroize (v : Vec) (h : v.size ≤ v.block.length) :
    v.zeroize.size = 0 ∧ v.zeroize.block.length = v.block.length ∧ Clean (v.zeroize.block.take v.size) ∧
      (Clean v.zeroize.block ↔ Clean (v.block.drop v.size)) := by
  refine ⟨rfl, ?_, ?_, ?_⟩
  · simp only [zeroize, List.length_append, List.length_replicate, List.length_drop]; omega
  · simp only [zeroize]
    rw [List.take_append_of_le_length (by simp), List.take_of_length_le (by simp)]
    intro c hc
    exact .inr (List.eq_of_mem_replicate hc)
  · constructor
    · intro hc c hm
      exact hc c (by simp only [zeroize, List.mem_append]; exact .inr hm)
    · intro hc
      exact zeroize_clean hc

/-- Two elements in a block of three. -/
example : (Vec.mk [some 7, some 8, none] 2).zeroize.block = [some 0, some 0, none] := by decide

theorem symKeyLife_clean {n : Nat} (hn : n = 16 ∨ n = 32) : ∀ (ks : List Bytes) (v : Vec), Tidy v → v.size ≤ n →
    (v.block = [] ∨ n ≤ v.block.length) → (∀ k ∈ ks, k.length = n) →
    ∃ l, Emits (symKeyLife ks v) (.ok ()) l ∧ ∀ b ∈ l, Clean b
  | [], v, ht, _, _, _ => ⟨[v.zeroize.block], Emits.drop _, by simpa using zeroize_clean ht⟩
  | k :: ks, v, ht, hs, hb, hk => by
    have hkn : k.length = n := hk k (by simp)
    obtain ⟨v1, l1, e1, h1, c1, t1, g1, s1⟩ := setKey_emits (v := v) (k := k) (by omega)
    obtain ⟨l2, e2, c2⟩ := symKeyLife_clean hn ks v1 (t1 ht (by omega)) (by rw [h1.1]; omega)
      (.inr (by obtain ⟨r, hr⟩ := h1.2; rw [hr]; simp; omega)) (fun k' h' => hk k' (by simp [h']))
    refine ⟨l1 ++ l2, e1.bind e2, ?_⟩
    intro b hm
    rcases List.mem_append.mp hm with hm | hm
    · rcases hb with hb | hb
      · rw [c1 b hm, hb]
        simp [Clean]
      · have : l1 = [] := by
          have h2 : k.length ≤ v.block.length := by omega
          have h3 := e1 []
          have h4 : ¬ (k.length ≠ 16 ∧ k.length ≠ 32) := by omega
          simp only [setKey, if_neg h4, assign, clear, if_pos h2, List.nil_append, Prod.mk.injEq] at h3
          exact h3.2.symm
        rw [this] at hm
        cases hm
    · exact c2 b hm

/-- A symmetric key object that only ever gets keys of one length leaves no key behind, however many it gets. -/
theorem C130_symkey_partial (ks : List Bytes) (n : Nat) (hn : n = 16 ∨ n = 32) (hk : ∀ k ∈ ks, k.length = n) :
    result (symKeyLife ks {}) = .ok () ∧ ∀ b ∈ left (symKeyLife ks {}), Clean b := by
  obtain ⟨l, e, c⟩ := symKeyLife_clean hn ks {} tidy_nil (by simp) (.inl rfl) hk
  rw [e.left, e.result]
  exact ⟨rfl, c⟩

/-- Three keys of 32 bytes. -/
example : ∀ k ∈ [List.replicate 32 (1 : UInt8), List.replicate 32 2, List.replicate 32 3], k.length = 32 := by decide

/-- The code violates C130: when a key of 16 bytes is replaced by one of 32, the memory of the old key is released without being
wiped. -/
theorem C130_longer_violated (k k' : Bytes) (h : k.length = 16) (h' : k'.length = 32) : Readable k (left (symKeyLife [k, k'] {})) := by
  obtain ⟨v1, l1, e1, h1, -, -, g1, -⟩ := setKey_emits (v := {}) (k := k) (.inl h)
  have hb : v1.block = k.map some := by
    have h3 := e1 []
    have h4 : ¬ (k.length ≠ 16 ∧ k.length ≠ 32) := by omega
    have h5 : ¬ (k.length ≤ 0) := by omega
    simp only [setKey, if_neg h4, assign, clear, List.length_nil, if_neg h5, Prod.mk.injEq, Res.ok.injEq] at h3
    rw [← h3.1]; rfl
  obtain ⟨v2, l2, e2, h2, -, -, g2, -⟩ := setKey_emits (v := v1) (k := k') (.inr h')
  have e : Emits (symKeyLife [k, k'] {}) (.ok ()) _ := e1.bind (e2.bind (Emits.drop v2.zeroize))
  rw [e.left, g2 (by rw [hb]; simp; omega)]
  exact ⟨v1.block, by simp, [], [], by simp [hb]⟩

/-- And when a key of 32 bytes is replaced by one of 16, the destructor wipes 16 bytes only: the second half of the old key stays. -/
theorem C130_shorter_violated (k k' : Bytes) (h : k.length = 32) (h' : k'.length = 16) :
    Readable (k.drop 16) (left (symKeyLife [k, k'] {})) := by
  obtain ⟨v1, l1, e1, h1, -, -, -, -⟩ := setKey_emits (v := {}) (k := k) (.inr h)
  have hb : v1.block = k.map some := by
    have h3 := e1 []
    have h4 : ¬ (k.length ≠ 16 ∧ k.length ≠ 32) := by omega
    have h5 : ¬ (k.length ≤ 0) := by omega
    simp only [setKey, if_neg h4, assign, clear, List.length_nil, if_neg h5, Prod.mk.injEq, Res.ok.injEq] at h3
    rw [← h3.1]; rfl
  obtain ⟨v2, l2, e2, h2, -, -, -, g2⟩ := setKey_emits (v := v1) (k := k') (.inl h')
  have e : Emits (symKeyLife [k, k'] {}) (.ok ()) _ := e1.bind (e2.bind (Emits.drop v2.zeroize))
  rw [e.left]
  have hz : v2.zeroize.block = List.replicate 16 (some 0) ++ (k.drop 16).map some := by
    simp only [zeroize]
    rw [h2.1, h', g2 (by rw [hb]; simp; omega), hb, h', List.drop_append_of_le_length (by simp; omega),
      List.drop_of_length_le (by simp; omega), List.nil_append, List.map_drop]
  exact ⟨v2.zeroize.block, by simp, List.replicate 16 (some 0), [], by rw [hz]; simp⟩

example : (List.replicate 16 (7 : UInt8)).length = 16 ∧ (List.replicate 32 (9 : UInt8)).length = 32 := by decide

/-- A generated key stays in the memory of the function that generates it. -/
theorem C130_generated_violated (gr : Grow) (rnd : Bytes) (h : rnd.length = 16 ∨ rnd.length = 32) :
    (∃ v, result (generateKey gr {} rnd) = .ok v ∧ Holds v rnd) ∧ Readable rnd (left (generateKey gr {} rnd)) := by
  obtain ⟨v, l, e, hv, -, -⟩ := fill_emits gr rnd.length 0 (v := {}) holds_nil tidy_nil
  obtain ⟨v1, l1, e1, h1, -, -, -, -⟩ := setKey_emits (v := {}) (k := rnd) h
  have ee : Emits (generateKey gr {} rnd) (.ok v1) _ := e.bind (e1.scope (v.overwrite rnd))
  rw [ee.left, ee.result]
  refine ⟨⟨v1, rfl, h1⟩, ?_⟩
  refine (readable_of (v := v.overwrite rnd) (p := []) (a := []) (g := [(v.overwrite rnd).block]) ?_ (by simp)).mono (by simp)
  simpa using overwrite_holds hv (b := rnd) (by simp)

example : (List.replicate 16 (7 : UInt8)).length = 16 ∨ (List.replicate 16 (7 : UInt8)).length = 32 := by decide

/-! ### Encryption with attributes -/
section
variable {q : ℕ} [Fact q.Prime]
variable {G1 G2 GT : Type} [AddCommGroup G1] [AddCommGroup G2] [AddCommGroup GT]
variable [Module (ZMod q) G1] [Module (ZMod q) G2] [Module (ZMod q) GT]
open Scheme

theorem encryptKEM_elem {env : Env G1 G2 GT} {sch : Scheme} {c c1 : Ctx G1 G2 GT} {id : Bytes} {input : FInput} {len : Nat} {r : Rand q}
    {ct ct1 : Ciphertext G1 G2 GT} {K : Bytes} (h : encryptKEM env sch c id input len r ct = .ok (.ok (K, ct1), c1)) :
    ∃ x : GT, symKeyOf env x len = .ok K := by
  have key : ∀ body : Key G1 G2 GT → Res (Bytes × Ciphertext G1 G2 GT), (∀ mpk, body mpk = .ok (K, ct1) → ∃ x : GT, symKeyOf env x len = .ok K) →
      (do let res ← caught (match (c.ks.getPublicKey id).1 with
            | some mpk => body mpk
            | none => .throw .invalidParams)
          Res.ok (res, ({ c with ks := (c.ks.getPublicKey id).2 } : Ctx G1 G2 GT))) = .ok (.ok (K, ct1), c1) →
      ∃ x : GT, symKeyOf env x len = .ok K := by
    intro body hb hh
    obtain ⟨res, h1, hh⟩ := (Res.bind_eq_ok _ _ _).mp hh
    simp only [Res.ok.injEq, Prod.mk.injEq] at hh
    rw [hh.1] at h1
    have h2 := caught_eq_ok h1
    split at h2
    · exact hb _ h2
    · cases h2
  cases sch <;> cases input
  all_goals first
    | exact key _ (fun mpk hm => by obtain ⟨x, hx, -⟩ := cpEnc_len hm; exact ⟨x, hx⟩) h
    | exact key _ (fun mpk hm => by obtain ⟨x, hx, -⟩ := kpEnc_len hm; exact ⟨x, hx⟩) h
    | (simp [encryptKEM] at h)

theorem decryptKEM_elem {env : Env G1 G2 GT} {sch : Scheme} {c c1 : Ctx G1 G2 GT} {id : Bytes} {len : Nat}
    {ct : Ciphertext G1 G2 GT} {K : Bytes} (h : decryptKEM q env sch c id ct len = .ok (.ok K, c1)) :
    ∃ x : GT, symKeyOf env x len = .ok K := by
  unfold decryptKEM at h
  obtain ⟨res, h1, h⟩ := (Res.bind_eq_ok _ _ _).mp h
  simp only [Res.ok.injEq, Prod.mk.injEq] at h
  rw [h.1] at h1
  have h2 := caught_eq_ok h1
  split at h2
  · cases h2
  · split at h2
    · obtain ⟨x, hx, -⟩ := cpDec_len h2
      exact ⟨x, hx⟩
    · obtain ⟨x, hx, -⟩ := kpDec_len h2
      exact ⟨x, hx⟩

/-- What the wrapper wipes: besides what the derivation of the session key `K` and the hash function leave, encryption leaves only
clean memory and the bytes of the ciphertext, decryption only clean memory. The model computes the same data as that of C46. -/
theorem C130_wrapper_partial (gr : Grow) (env : Env G1 G2 GT) (hmd : ∀ b, (env.md b).length = 32)
    (hkdf : ∀ n b, (env.kdf n b).length = n) (x : GT) (data : Bytes) :
    ∃ K out, symKeyOf env x 32 = .ok K ∧ BS.xorAssign data (hashFromBytes env.md K data.length schemeHashPrefix) = .ok out ∧
      result (encryptTail gr env x data) = .ok out ∧ result (decryptTail gr env x data) = .ok out ∧
      (∀ b ∈ left (encryptTail gr env x data), b ∈ left (hashToKey gr env {} x 32) ∨
        b ∈ left (hashFrom gr env.md K data.length schemeHashPrefix) ∨ Clean b ∨ b = out.map some) ∧
      (∀ b ∈ left (decryptTail gr env x data), b ∈ left (hashToKey gr env {} x 32) ∨
        b ∈ left (hashFrom gr env.md K data.length schemeHashPrefix) ∨ Clean b) := by
  obtain ⟨K, ct, l1, l2, l3, hK, hct, e, el1, el2, -, -, -, hl3⟩ := encryptTail_emits gr env x data hmd hkdf
  obtain ⟨K', pt, m1, m2, m3, hK', hpt, e', em1, em2, -, -, -, hm3⟩ := decryptTail_emits gr env x data hmd hkdf
  rw [hK] at hK'
  cases hK'
  rw [hct] at hpt
  cases hpt
  refine ⟨K, ct, hK, hct, e.result, e'.result, ?_, ?_⟩
  · intro b hb
    rw [e.left] at hb
    rw [el1, el2]
    rcases List.mem_append.mp hb with hb | hb
    · exact .inl hb
    · rcases List.mem_append.mp hb with hb | hb
      · exact .inr (.inl hb)
      · exact .inr (.inr (hl3 b hb))
  · intro b hb
    rw [e'.left] at hb
    rw [em1, em2]
    rcases List.mem_append.mp hb with hb | hb
    · exact .inl hb
    · rcases List.mem_append.mp hb with hb | hb
      · exact .inr (.inl hb)
      · exact .inr (.inr (hm3 b hb))

/-- The code violates C130: every encryption leaves its session key in memory, and with what is left the ciphertext can be decrypted.
For both schemes, all keys, policies, attribute lists and messages: bytes that can be read in the blocks left give the plaintext
back. -/
theorem C130_encrypt_violated (gr : Grow) (env : Env G1 G2 GT) (hmd : ∀ b, (env.md b).length = 32)
    (hkdf : ∀ n b, (env.kdf n b).length = n) (sch : Scheme) (c c1 : Ctx G1 G2 GT) (mpkID : Bytes) (input : FInput) (plaintext : Bytes)
    (r : Rand q) (ct ct1 : Ciphertext G1 G2 GT) (h : Scheme.encrypt env sch c mpkID input plaintext r ct = .ok (.ok ct1, c1)) :
    ∃ (x : GT) (K ed : Bytes), SMap.find b!"_ED" ct1.comps = some (.bytes ed) ∧ result (encryptTail gr env x plaintext) = .ok ed ∧
      Readable K (left (encryptTail gr env x plaintext)) ∧ K.length = 32 ∧
      BS.xorAssign ed (hashFromBytes env.md K ed.length schemeHashPrefix) = .ok plaintext := by
  unfold Scheme.encrypt at h
  obtain ⟨⟨res, c2⟩, h1, h⟩ := (Res.bind_eq_ok _ _ _).mp h
  cases res with
  | error e => simp at h
  | ok p =>
    obtain ⟨K, ct2⟩ := p
    simp only at h
    obtain ⟨ed, h2, h⟩ := (Res.bind_eq_ok _ _ _).mp h
    obtain ⟨d, h3, h⟩ := (Res.bind_eq_ok _ _ _).mp h
    simp only [Res.ok.injEq, Prod.mk.injEq, Except.ok.injEq] at h
    obtain ⟨x, hx⟩ := encryptKEM_elem h1
    obtain ⟨K', ed', l1, l2, l3, hK, hed, e, -, -, r1, -, -, -⟩ := encryptTail_emits gr env x plaintext hmd hkdf
    have hx' : symKeyOf env x 32 = .ok K := hx
    rw [hK] at hx'
    cases hx'
    rw [hed] at h2
    cases h2
    obtain ⟨y, hy1, hy2, hy3⟩ := mask_xor hmd K plaintext
    rw [hed] at hy1
    cases hy1
    refine ⟨x, K, ed, ?_, e.result, ?_, ?_, hy3⟩
    · rw [← h.1]
      simp only [Container.setComponent] at h3
      cases h3
      rw [SMap.find_insert, if_pos rfl]
    · rw [e.left]
      exact r1.mono (fun b hb => by simp [hb])
    · rw [symKeyOf_eq] at hK
      simp only [lengthAnswer] at hK
      simp at hK
      rw [← hK]
      exact hkdf _ _

/-- And so does every decryption that gets as far as deriving the session key. -/
theorem C130_decrypt_violated (gr : Grow) (env : Env G1 G2 GT) (hmd : ∀ b, (env.md b).length = 32)
    (hkdf : ∀ n b, (env.kdf n b).length = n) (sch : Scheme) (c c1 : Ctx G1 G2 GT) (keyID K : Bytes) (ct : Ciphertext G1 G2 GT)
    (h : decryptKEM q env sch c keyID ct 32 = .ok (.ok K, c1)) (ed : Bytes) :
    ∃ x : GT, symKeyOf env x 32 = .ok K ∧ Readable K (left (decryptTail gr env x ed)) ∧
      Readable (env.wT x) (left (decryptTail gr env x ed)) := by
  obtain ⟨x, hx⟩ := decryptKEM_elem h
  obtain ⟨K', pt, l1, l2, l3, hK, -, e, -, -, r1, r2, -, -⟩ := decryptTail_emits gr env x ed hmd hkdf
  rw [hx] at hK
  cases hK
  refine ⟨x, hx, ?_, ?_⟩ <;> rw [e.left]
  · exact r1.mono (fun b hb => by simp [hb])
  · exact r2.mono (fun b hb => by simp [hb])

/-- Encryption under the policy `a and (b or c)` and decryption with the attributes `a` and `c` meet the hypotheses of the three
theorems. -/
example (S : StdSort) (pr : ParamRand 5 (ZMod 5) (ZMod 5)) (kr er : Rand 5) :
    (∀ b, ((Toy.env Toy.mk0 S).md b).length = 32) ∧ (∀ n b, ((Toy.env Toy.mk0 S).kdf n b).length = n) ∧
    ∃ c c1 p ct c2 c3 K, Scheme.encrypt (Toy.env Toy.mk0 S) .cp c b!"mpk" (.policy p) [1, 2, 3] er {} = .ok (.ok ct, c1) ∧
      decryptKEM 5 (Toy.env Toy.mk0 S) .cp c2 b!"key" ct 32 = .ok (.ok K, c3) := by
  obtain ⟨c1, hg⟩ := Toy.gen Toy.mk0 S .cp pr
  obtain ⟨p, al, h1, h2, h3, h4⟩ := texts (Toy.text3 Toy.mk0) (Toy.list3 Toy.mk0) Toy.pct3
  have hn : NoClash (Toy.env Toy.mk0 S).md (rowNames p) := by
    rw [Toy.names3 h1]; exact Toy.short_noClash (by decide)
  have ha : NoClash (Toy.env Toy.mk0 S).md al.attrs := by
    rw [Toy.attrs3 Toy.mk0 h2]; exact Toy.short_noClash (by decide)
  obtain ⟨mpk, c2, dk, -, -, hd, hm, hr, hrt⟩ := C46_cp_round_trip (Toy.env Toy.mk0 S) (Toy.bilinear Toy.mk0 S) rfl (Toy.digest Toy.mk0 S)
    _ c1 b!"mpk" b!"msk" b!"key" pr kr er hg _ p h1 al (rowLabels_nodup h3 hn) ha (h4.mpr (Toy.true3 Toy.mk0)) {} [1, 2, 3]
  obtain ⟨ct, cE, cD, he, hdec⟩ := hrt c2 c2 _ _ hr hr hm hd
  refine ⟨Toy.digest Toy.mk0 S, fun n b => by simp [Toy.env], c2, cE, p, ct, c2, ?_⟩
  unfold Scheme.decrypt at hdec
  obtain ⟨⟨res, c3⟩, hk, hdec⟩ := (Res.bind_eq_ok _ _ _).mp hdec
  cases res with
  | ok K => exact ⟨c3, K, he, hk⟩
  | error e =>
    simp only at hdec
    obtain ⟨o, ho, hdec⟩ := (Res.bind_eq_ok _ _ _).mp hdec
    cases o with
    | ok y => cases (caught_eq_ok ho)
    | error e => simp at hdec

end

/-! ### Authenticated encryption -/

/-- The additional data of an authenticated encryption object is wiped, whatever it was set to. -/
theorem C130_aad_partial (gr : Grow) (key aad : Bytes) :
    ∃ a l, Emits ((Auth.new key).setAad gr aad) (.ok a) l ∧ (∀ b ∈ l, Clean b) ∧
      left a.destroy = [key.map some, a.aad.zeroize.block] ∧ Clean a.aad.zeroize.block := by
  unfold Auth.setAad
  by_cases h : aad.length = 0
  · obtain ⟨v, l, e, -, t, c⟩ := fill_emits gr 16 0 (v := ({} : Vec).clear) holds_nil tidy_nil
    rw [if_pos h]
    exact ⟨⟨v, copy key, true⟩, l ++ [], Emits.bind (f := fun v => pure (Auth.mk v (copy key) true)) e (Emits.pure _), by simpa using c, rfl, zeroize_clean t⟩
  · rw [if_neg h]
    have ea : Emits (assign {} aad) (.ok (copy aad)) [[]] := fun g => by
      have : ¬ (aad.length ≤ 0) := by omega
      simp only [assign, List.length_nil, if_neg this]
    exact ⟨⟨copy aad, copy key, true⟩, [[]] ++ [], Emits.bind (f := fun v => pure (Auth.mk v (copy key) true)) ea (Emits.pure _), by simp [Clean], rfl, zeroize_clean (tidy_copy aad)⟩

/-- The code violates C130: the destructor of an authenticated encryption object wipes the additional data, which is public, and
not the key. -/
theorem C130_cipher_key_violated (a : Auth) (key : Bytes) (h : Holds a.key key) : Readable key (left a.destroy) := by
  have e : Emits a.destroy (.ok ()) _ := (Emits.drop a.key).bind (Emits.drop (if a.aadSet then a.aad.zeroize else a.aad))
  rw [e.left]
  exact readable_of (p := []) (a := []) (by simpa using h) (by simp)

example : Holds (Auth.new [1, 2, 3]).key [1, 2, 3] := holds_copy _

/-- Decrypted bytes stay in memory, also when the tag is wrong and they must not be seen. -/
theorem C130_unauthentic_violated (gr : Grow) (p : Bytes) (good : Bool) :
    result (authDecrypt gr p good) = .ok (if good then some p else none) ∧ Readable p (left (authDecrypt gr p good)) := by
  obtain ⟨v, l, e, -, -, -⟩ := append_emits gr (v := {}) holds_nil p
  have hr : ∀ g : List Block, (copy (p ++ [0])).block ∈ g → Readable p g := fun g hg =>
    readable_of (v := copy (p ++ [0])) (p := []) (a := [0]) (by simpa using holds_copy (p ++ [0])) hg
  cases good with
  | true =>
    have ee : Emits (authDecrypt gr p true) (.ok (some p)) _ :=
      e.bind ((Emits.drop (copy (p ++ [0]))).bind ((Emits.drop v.zeroize).bind (Emits.pure (some p))))
    rw [ee.result, ee.left]
    exact ⟨rfl, hr _ (by simp)⟩
  | false =>
    have ee : Emits (authDecrypt gr p false) (.ok none) _ :=
      e.bind ((Emits.drop (copy (p ++ [0]))).bind ((Emits.drop v).bind (Emits.pure none)))
    rw [ee.result, ee.left]
    exact ⟨rfl, hr _ (by simp)⟩

end Residue
end Abe
