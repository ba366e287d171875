import Verif.Proof.Hiding
import Mathlib.SetTheory.Cardinal.Finite
/-!
# Messages are hidden by their masks (C132)
-/
set_option linter.unusedSimpArgs false
set_option linter.unusedSectionVars false
set_option autoImplicit false
namespace Abe
namespace Hiding
open Scheme Authentic
variable {q : ℕ} [Fact q.Prime]
variable {G1 G2 GT : Type} [AddCommGroup G1] [AddCommGroup G2] [AddCommGroup GT]
variable [Module (ZMod q) G1] [Module (ZMod q) G2] [Module (ZMod q) GT]

/-- Encryption in closed form, whatever the hash function answers to the inputs of the mask. -/
theorem encrypt_answering (env : Env G1 G2 GT) (hmd : ∀ x, (env.md x).length = 32) (hnd : env.ndebug = false)
    (hser : ∀ x, 34 < (env.wT x).length) (sch : Scheme) (c c1 : Ctx G1 G2 GT) (mpkID : Bytes) (input : FInput) (r : Rand q)
    (ct ct0 : Ciphertext G1 G2 GT) (K : Bytes) (hkem : encryptKEM env sch c mpkID input 32 r ct = .ok (.ok (K, ct0), c1)) (hK : K.length = 32)
    (hparse : ∀ p, input = .policy p → ∃ s, createPolicyTree env.mktime s = .ok (some p))
    (hfree : ∀ n ∈ usedNames input, ¬ MaskInput K n ∧ ∀ mpk k, (c.ks.getPublicKey mpkID).1 = some mpk →
      SMap.find b!"k" mpk.comps = some (.bytes k) → ¬ MaskInput K (k ++ n))
    (f : Answers) (p : Bytes) :
    Scheme.encrypt { env with md := answering env.md K f } sch c mpkID input p r ct =
      .ok (.ok ⟨ct0.version, ct0.alg, ct0.uid, SMap.insert b!"_ED"
        (.bytes (xorBytes p (hashFromBytes (answering env.md K f) K p.length schemeHashPrefix))) ct0.comps⟩, c1) := by
  have h : encryptKEM (withMd env (answering env.md K f)) sch c mpkID input 32 r ct = .ok (.ok (K, ct0), c1) := by
    rw [encryptKEM_md env hnd _ sch c mpkID input 32 r ct hparse, hkem]
    · intro n hn
      exact ⟨answering_other (hfree n hn).1, fun mpk k h1 h2 => answering_other ((hfree n hn).2 mpk k h1 h2)⟩
    · intro x
      apply answering_other
      rintro ⟨i, hi⟩
      have h1 := congrArg List.length hi
      have h2 := hser x
      have h3 : (env.wT x).length ≤ (groupSerialize 0xB4 (env.wT x)).length := by
        simp only [groupSerialize, BS.smartPack]
        split
        · simp only [List.length_append]; omega
        · split
          · simp only [List.length_append]; omega
          · split <;> simp only [List.length_append] <;> omega
      simp only [List.length_cons, hK] at h1
      omega
  unfold Scheme.encrypt
  have h' : encryptKEM (withMd env (answering env.md K f)) sch c mpkID input symKeyBytes r ct = .ok (.ok (K, ct0), c1) := h
  rw [h']
  simp only [Res.ok_bind, xorAssign_mask (answering_length hmd K f), setComponent_bytes]

/-- Messages of up to 8192 bytes are perfectly hidden: if the hash function is a random function, every ciphertext is as likely for
the one message as for any other of the same length. For every encapsulation with session key `K`, the number of ways to answer
the inputs of the mask that lead to a given outcome is the same for both messages. What is missing: longer messages, and that `K`
itself is not known (C115). -/
theorem C132_hidden_partial (env : Env G1 G2 GT) (hmd : ∀ x, (env.md x).length = 32) (hnd : env.ndebug = false)
    (hser : ∀ x, 34 < (env.wT x).length) (sch : Scheme) (c c1 : Ctx G1 G2 GT) (mpkID : Bytes) (input : FInput) (r : Rand q)
    (ct ct0 : Ciphertext G1 G2 GT) (K : Bytes) (hkem : encryptKEM env sch c mpkID input 32 r ct = .ok (.ok (K, ct0), c1)) (hK : K.length = 32)
    (hparse : ∀ p, input = .policy p → ∃ s, createPolicyTree env.mktime s = .ok (some p))
    (hfree : ∀ n ∈ usedNames input, ¬ MaskInput K n ∧ ∀ mpk k, (c.ks.getPublicKey mpkID).1 = some mpk →
      SMap.find b!"k" mpk.comps = some (.bytes k) → ¬ MaskInput K (k ++ n))
    (p0 p1 : Bytes) (hl : p0.length = p1.length) (hn : p0.length ≤ 8192) (o : Ciphertext G1 G2 GT) (c' : Ctx G1 G2 GT) :
    Nat.card { f : Answers // Scheme.encrypt { env with md := answering env.md K f } sch c mpkID input p0 r ct = .ok (.ok o, c') } =
      Nat.card { f : Answers // Scheme.encrypt { env with md := answering env.md K f } sch c mpkID input p1 r ct = .ok (.ok o, c') } := by
  have e := fun f p => encrypt_answering env hmd hnd hser sch c c1 mpkID input r ct ct0 K hkem hK hparse hfree f p
  have hsh := fun f => mask_shift hmd K f p0 p1 hl hn
  simp only [e]
  refine Nat.card_congr ⟨fun f => ⟨shift p0 p1 f.1, ?_⟩, fun f => ⟨shift p0 p1 f.1, ?_⟩, ?_, ?_⟩
  · have := f.2
    rw [hsh]
    exact this
  · have := f.2
    have h2 := hsh (shift p0 p1 f.1)
    rw [shift_shift] at h2
    rw [← h2]
    exact this
  · intro f; exact Subtype.ext (shift_shift p0 p1 f.1)
  · intro f; exact Subtype.ext (shift_shift p0 p1 f.1)

/-- And every outcome is possible: for every message of up to 8192 bytes and all bytes of the same length there are answers for which
these bytes are the masked message. -/
theorem C132_every_ciphertext (env : Env G1 G2 GT) (hmd : ∀ x, (env.md x).length = 32) (hnd : env.ndebug = false)
    (hser : ∀ x, 34 < (env.wT x).length) (sch : Scheme) (c c1 : Ctx G1 G2 GT) (mpkID : Bytes) (input : FInput) (r : Rand q)
    (ct ct0 : Ciphertext G1 G2 GT) (K : Bytes) (hkem : encryptKEM env sch c mpkID input 32 r ct = .ok (.ok (K, ct0), c1)) (hK : K.length = 32)
    (hparse : ∀ p, input = .policy p → ∃ s, createPolicyTree env.mktime s = .ok (some p))
    (hfree : ∀ n ∈ usedNames input, ¬ MaskInput K n ∧ ∀ mpk k, (c.ks.getPublicKey mpkID).1 = some mpk →
      SMap.find b!"k" mpk.comps = some (.bytes k) → ¬ MaskInput K (k ++ n))
    (p ed : Bytes) (hl : p.length = ed.length) (hn : p.length ≤ 8192) :
    ∃ f : Answers, ∃ ct1, Scheme.encrypt { env with md := answering env.md K f } sch c mpkID input p r ct = .ok (.ok ct1, c1) ∧
      SMap.find b!"_ED" ct1.comps = some (.bytes ed) := by
  refine ⟨fun i j => (p[32 * i.toNat + j.val]?.getD 0) ^^^ (ed[32 * i.toNat + j.val]?.getD 0), _,
    encrypt_answering env hmd hnd hser sch c c1 mpkID input r ct ct0 K hkem hK hparse hfree _ p, ?_⟩
  rw [SMap.find_insert, if_pos rfl]
  congr 2
  have l0 := (mask_spec (answering_length hmd K (fun i j => (p[32 * i.toNat + j.val]?.getD 0) ^^^ (ed[32 * i.toNat + j.val]?.getD 0))) K
    p.length schemeHashPrefix).1
  apply List.ext_getElem
  · rw [xorBytes_length, l0]; omega
  · intro j h1 h2
    have e0 := answering_byte hmd K (fun i j => (p[32 * i.toNat + j.val]?.getD 0) ^^^ (ed[32 * i.toNat + j.val]?.getD 0)) p.length j (by omega) hn
    rw [List.getElem?_eq_getElem (by omega)] at e0
    simp only [Option.some.injEq] at e0
    simp only [xorBytes, List.getElem_zipWith, e0]
    have hj : 32 * (UInt8.ofNat (j / 32)).toNat + j % 32 = j := by
      simp only [UInt8.toNat_ofNat']
      omega
    rw [hj, List.getElem?_eq_getElem (by omega), List.getElem?_eq_getElem (by omega)]
    simp only [Option.getD_some, ← UInt8.xor_assoc, UInt8.xor_self, UInt8.zero_xor]

/-- The code violates C132: longer messages are not hidden. For every length above 8192 there are two messages of this length whose
ciphertexts are never the same, whatever the hash function, the session keys and the random values; anybody can tell which of the
two was encrypted. -/
theorem C132_long_violated (n : Nat) (hn : 8192 < n) : ∃ p0 p1 : Bytes, p0.length = n ∧ p1.length = n ∧
    ∀ (env env' : Env G1 G2 GT) (_ : ∀ x, (env.md x).length = 32) (_ : ∀ x, (env'.md x).length = 32) (sch : Scheme) (c c' d d' : Ctx G1 G2 GT)
      (mpkID mpkID' : Bytes) (input input' : FInput) (r r' : Rand q) (ct ct' o o' : Ciphertext G1 G2 GT),
      Scheme.encrypt env sch c mpkID input p0 r ct = .ok (.ok o, d) → Scheme.encrypt env' sch c' mpkID' input' p1 r' ct' = .ok (.ok o', d') →
      ∃ ed ed' : Bytes, SMap.find b!"_ED" o.comps = some (.bytes ed) ∧ SMap.find b!"_ED" o'.comps = some (.bytes ed') ∧
        ed.length = n ∧ ed'.length = n ∧ ed[0]? = ed[8192]? ∧ ed'[0]? ≠ ed'[8192]? := by
  have key : ∀ (b : UInt8) (env : Env G1 G2 GT) (_ : ∀ x, (env.md x).length = 32) (sch : Scheme) (c d : Ctx G1 G2 GT)
      (mpkID : Bytes) (input : FInput) (r : Rand q) (ct o : Ciphertext G1 G2 GT),
      Scheme.encrypt env sch c mpkID input (b :: List.replicate (n - 1) 0) r ct = .ok (.ok o, d) →
      ∃ ed : Bytes, SMap.find b!"_ED" o.comps = some (.bytes ed) ∧ ed.length = n ∧ (ed[0]? = ed[8192]? ↔ b = 0) := by
    intro b env hmd sch c d mpkID input r ct o h
    unfold Scheme.encrypt at h
    obtain ⟨⟨res, c2⟩, h1, h⟩ := (Res.bind_eq_ok _ _ _).mp h
    cases res with
    | error e => simp at h
    | ok pq =>
      obtain ⟨K, ct2⟩ := pq
      simp only at h
      obtain ⟨ed, h2, h⟩ := (Res.bind_eq_ok _ _ _).mp h
      obtain ⟨dd, h3, h⟩ := (Res.bind_eq_ok _ _ _).mp h
      simp only [Res.ok.injEq, Prod.mk.injEq, Except.ok.injEq] at h
      rw [setComponent_bytes] at h3
      cases h3
      rw [xorAssign_mask hmd] at h2
      cases h2
      have hlen : (b :: List.replicate (n - 1) (0 : UInt8)).length = n := by simp; omega
      refine ⟨_, by rw [← h.1, SMap.find_insert, if_pos rfl], ?_, ?_⟩
      · rw [xorBytes_length, (mask_spec hmd K _ schemeHashPrefix).1, hlen]; omega
      · have hm := C48_mask_repeats_violated env.md hmd K n schemeHashPrefix 0 (by omega)
        have hl := (mask_spec hmd K n schemeHashPrefix).1
        rw [hlen]
        generalize hashFromBytes env.md K n schemeHashPrefix = m at hm hl
        rw [List.getElem?_eq_getElem (by omega), List.getElem?_eq_getElem (by omega)] at hm
        simp only [Option.some.injEq, Nat.zero_add] at hm
        rw [List.getElem?_eq_getElem (by rw [xorBytes_length, hlen]; omega), List.getElem?_eq_getElem (by rw [xorBytes_length, hlen]; omega)]
        simp only [xorBytes, List.getElem_zipWith, Option.some.injEq, List.getElem_cons_zero, hm]
        have h0 : (b :: List.replicate (n - 1) (0 : UInt8))[8192]'(by omega) = 0 := by
          rw [List.getElem_cons_succ, List.getElem_replicate]
        rw [h0]
        constructor
        · intro h5
          have h6 := congrArg (fun z => z ^^^ m[8192]) h5
          simpa only [UInt8.xor_assoc, UInt8.xor_self, UInt8.xor_zero] using h6
        · rintro rfl; rfl
  refine ⟨0 :: List.replicate (n - 1) 0, 1 :: List.replicate (n - 1) 0, by simp; omega, by simp; omega, ?_⟩
  intro env env' hmd hmd' sch c c' d d' mpkID mpkID' input input' r r' ct ct' o o' h h'
  obtain ⟨ed, g1, g2, g3⟩ := key 0 env hmd sch c d mpkID input r ct o h
  obtain ⟨ed', g1', g2', g3'⟩ := key 1 env' hmd' sch c' d' mpkID' input' r' ct' o' h'
  exact ⟨ed, ed', g1, g1', g2, g2', g3.mpr rfl, fun h5 => absurd (g3'.mp h5) (by decide)⟩

/-- The hypotheses of C132 are met by an encryption for the attributes `a` and `c` with 41 bytes for an element of the target group. -/
example (S : StdSort) : ∃ (env : Env (ZMod 5) (ZMod 5) (ZMod 5)) (c c1 : Ctx (ZMod 5) (ZMod 5) (ZMod 5)) (ct0 : Ciphertext (ZMod 5) (ZMod 5) (ZMod 5)) (K k : Bytes)
    (mpk : Key (ZMod 5) (ZMod 5) (ZMod 5)) (r : Rand 5),
    (∀ x, (env.md x).length = 32) ∧ env.ndebug = false ∧ (∀ x, 34 < (env.wT x).length) ∧
    encryptKEM env .kp c b!"mpk" (.attrs { attrs := [b!"a", b!"c"] }) 32 r {} = .ok (.ok (K, ct0), c1) ∧ K.length = 32 ∧
    (c.ks.getPublicKey b!"mpk").1 = some mpk ∧ SMap.find b!"k" mpk.comps = some (.bytes k) ∧
    (∀ n ∈ usedNames (.attrs { attrs := [b!"a", b!"c"] }), ¬ MaskInput K n ∧ ∀ mpk k, (c.ks.getPublicKey b!"mpk").1 = some mpk →
      SMap.find b!"k" mpk.comps = some (.bytes k) → ¬ MaskInput K (k ++ n)) := by
  obtain ⟨env, henv⟩ : ∃ env : Env (ZMod 5) (ZMod 5) (ZMod 5),
    env = { Toy.env Toy.mk0 S with wT := fun x => UInt8.ofNat x.val :: List.replicate 40 0 } := ⟨_, rfl⟩
  obtain ⟨P, M, hPM, f1, f2, f3, f4, f5⟩ := kpParams_ok (q := 5) env ⟨1, 2, 3, 4, List.replicate 32 9, [], []⟩
  obtain ⟨c, hc⟩ : ∃ c : Ctx (ZMod 5) (ZMod 5) (ZMod 5), c = ⟨102, true, { pub := [(b!"mpk", some { comps := P })] }⟩ := ⟨_, rfl⟩
  have hpk : (c.ks.getPublicKey b!"mpk").1 = some { comps := P } := by rw [hc]; rfl
  have hr : c.ready = true := by rw [hc]
  obtain ⟨x, ct1, henc⟩ : ∃ x ct1, kpEncBody env c { comps := P } { attrs := [b!"a", b!"c"] } 32 (⟨1, fun _ => 0, fun _ => 0, []⟩ : Rand 5) {} =
      .ok (env.kdf 32 x, ct1) := by
    simp only [kpEncBody, getBytes_of f4, getGT_of f3, getG2_of f2, usePairing_ok hr, Res.ok_bind,
      deref_some, setComponent_attrs, setComponent_g2, kpEncLoop_eq, symKeyOf_ok env _ (Or.inr rfl)]
    exact ⟨_, _, rfl⟩
  have hK : ∀ x, (env.kdf 32 x).length = 32 := by intro x; rw [henv]; simp [Toy.env]
  refine ⟨env, c, { c with ks := (c.ks.getPublicKey b!"mpk").2 }, ct1, env.kdf 32 x, List.replicate 32 9, { comps := P }, ⟨1, fun _ => 0, fun _ => 0, []⟩, ?_, ?_, ?_, ?_, hK _, hpk, f4, ?_⟩
  · intro x; rw [henv]; exact Toy.digest Toy.mk0 S x
  · rw [henv]; rfl
  · intro x; rw [henv]; simp
  · unfold encryptKEM
    simp only [hpk, henc, Bool.true_eq_false, if_false]
    rfl
  · intro n hn
    have hn1 : n.length = 1 := by
      simp only [usedNames, List.mem_cons, List.not_mem_nil, or_false] at hn
      rcases hn with rfl | rfl <;> rfl
    refine ⟨?_, ?_⟩
    · rintro ⟨i, hi⟩
      have := congrArg List.length hi
      simp only [List.length_cons, hK] at this
      omega
    · rintro mpk k h1 h2 ⟨i, hi⟩
      rw [hpk] at h1
      cases h1
      rw [f4] at h2
      cases h2
      have := congrArg List.length hi
      simp only [List.length_cons, List.length_append, List.length_replicate, hK] at this
      omega

end Hiding
end Abe
