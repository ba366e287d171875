import Verif.Model.Cca
import Verif.Props.Container
import Verif.Props.Scheme
import Verif.Proof.Hiding
/-!
# The disabled transform against chosen ciphertexts (C135)

The code is not compiled (`#if 0`); these theorems say what it would do.
-/
set_option linter.unusedSimpArgs false
set_option linter.unusedSectionVars false
set_option autoImplicit false
namespace Abe.Cca
open Scheme (Rand ParamRand Bilinear Satisfies)
variable {G1 G2 GT : Type} {q : Nat} [Fact q.Prime]
variable [AddCommGroup G1] [Module (ZMod q) G1] [AddCommGroup G2] [Module (ZMod q) G2] [AddCommGroup GT]
  [Module (ZMod q) GT]
variable [DecidableEq G1] [DecidableEq G2] [DecidableEq GT]

/-- A container with a byte string equals no container. -/
theorem eq_bytes_false (c1 c2 : Container G1 G2 GT) (k b : Bytes) (h : SMap.find k c1 = some (.bytes b)) :
    Container.eq c1 c2 ≠ .ok true := by
  have key : ∀ (ks : List Bytes) (n d : Nat), Container.eqLoop c1 c2 ks n = .ok d → n ≤ d ∧ (k ∈ ks → n < d) := by
    intro ks
    induction ks with
    | nil => intro n d h; simp only [Container.eqLoop, Res.ok.injEq] at h; simp [h]
    | cons k' ks ih =>
      intro n d hd
      simp only [Container.eqLoop, Res.bind_eq_ok] at hd
      obtain ⟨l, hl, r, hr, e, he, hd⟩ := hd
      obtain ⟨h1, h2⟩ := ih _ _ hd
      have hstep : n ≤ (if e then n else n + 1) := by split <;> omega
      refine ⟨by omega, fun hk => ?_⟩
      rcases List.mem_cons.mp hk with rfl | hk
      · have g := C40_lookup_present_partial c1 k (.bytes b) h (by simp)
        rw [g] at hl
        simp only [Res.ok.injEq] at hl
        subst hl
        have : e = false := by
          cases r <;> simp_all [Obj.isEqual]
        subst this
        simp at h1; omega
      · have := h2 hk; omega
  have hk : k ∈ SMap.keys c1 := List.mem_map_of_mem (SMap.mem_of_find h)
  intro hcon
  unfold Container.eq at hcon
  simp only at hcon
  split at hcon
  · simp at hcon
  · split at hcon
    · simp at hcon
    · rw [Res.bind_eq_ok] at hcon
      obtain ⟨d, hd, hd2⟩ := hcon
      have := (key _ _ _ hd).2 hk
      simp only [Res.ok.injEq, beq_iff_eq] at hd2
      omega

theorem caught_ok {α : Type} {x : Res α} {a : α} (h : Scheme.caught x = .ok (.ok a)) : x = .ok a := by
  cases x with
  | ok b => simpa [Scheme.caught] using h
  | throw e => cases e <;> simp [Scheme.caught] at h
  | ub => simp [Scheme.caught] at h
  | abort => simp [Scheme.caught] at h

/-- What the wrapper decrypts without an error has an encrypted message. -/
theorem decrypt_has_message {env : Env G1 G2 GT} {sch : Scheme} {c c1 : Ctx G1 G2 GT} {keyID : Bytes}
    {ct : Ciphertext G1 G2 GT} {M : Bytes} (h : Scheme.decrypt q env sch c keyID ct = .ok (none, M, c1)) :
    ∃ b, SMap.find b!"_ED" ct.comps = some (.bytes b) := by
  unfold Scheme.decrypt at h
  simp only [Res.bind_eq_ok] at h
  obtain ⟨⟨res, c2⟩, -, out, hout, h⟩ := h
  cases out with
  | error e => simp at h
  | ok p =>
    have hout := caught_ok hout
    cases res with
    | error e => simp at hout
    | ok K =>
      simp only [Res.bind_eq_ok] at hout
      obtain ⟨o, ho, b, hb, -⟩ := hout
      refine ⟨b, Hiding.getBytes_some ho ?_⟩
      cases o with
      | none => simp [Scheme.notNull] at hb
      | some x => simpa [Scheme.notNull] using hb

/-- The code violates C135: the disabled decapsulation never succeeds. Whatever the ciphertext, the keys, the random
values of the second encryption and what it leaves behind, no session key is returned: the ciphertexts are compared
with an `operator==` for which byte strings are never equal, and every ciphertext that gets that far has one. -/
theorem C135_decapsulation_violated (env : Env G1 G2 GT) (sch : Scheme) (c c' : Ctx G1 G2 GT) (mpkID keyID : Bytes)
    (ct : Ciphertext G1 G2 GT) (len : Nat) (er : Rand q) (fresh left : Ciphertext G1 G2 GT) (K : Bytes) :
    decryptKEM env sch c mpkID keyID ct len er fresh left ≠ .ok (.ok K, c') := by
  intro h
  unfold decryptKEM at h
  simp only [Res.bind_eq_ok] at h
  obtain ⟨⟨code, M, c1⟩, hdec, h⟩ := h
  cases code with
  | some e => simp at h
  | none =>
    obtain ⟨b, hb⟩ := decrypt_has_message hdec
    simp only [Res.bind_eq_ok] at h
    obtain ⟨input, -, h⟩ := h
    split at h
    · simp at h
    · simp at h
    · simp only [Res.bind_eq_ok] at h
      obtain ⟨⟨res, c2⟩, -, same, hsame, h⟩ := h
      split at h
      · simp at h
      · simp at h
      · exact eq_bytes_false _ _ _ _ hb (caught_ok hsame)

/-- The code violates C135: the disabled decryption returns no plaintext for any pair of ciphertexts. -/
theorem C135_decryption_violated (g : Gcm) (env : Env G1 G2 GT) (sch : Scheme) (c c' : Ctx G1 G2 GT)
    (mpkID keyID : Bytes) (ct1 ct2 : Ciphertext G1 G2 GT) (er : Rand q) (fresh left : Ciphertext G1 G2 GT) (p : Bytes) :
    decrypt g env sch c mpkID keyID ct1 ct2 er fresh left ≠ .ok (.ok p, c') := by
  intro h
  unfold decrypt at h
  simp only [Res.bind_eq_ok] at h
  obtain ⟨parts, -, h⟩ := h
  split at h
  · simp at h
  · simp only [Res.bind_eq_ok] at h
    obtain ⟨⟨res, c1⟩, hk, h⟩ := h
    cases res with
    | error e => simp at h
    | ok k => exact C135_decapsulation_violated _ _ _ _ _ _ _ _ _ _ _ _ hk

theorem setSymmetricKey_32 {K : Bytes} (h : K.length = 32) :
    ∃ k : SymKey, ({} : SymKey).setSymmetricKey K = .ok k ∧ k.data = K := by
  unfold SymKey.setSymmetricKey
  rw [if_neg (by simp [h, symKeyBytes, shortKeyBytes])]
  exact ⟨_, rfl, rfl⟩

theorem getSubset_second (r K : Bytes) (n : Nat) (hr : r.length = n) (hK : K.length = n) :
    BS.getSubset (BS.plus r K) n n = K := by
  subst hr
  simp [BS.getSubset, BS.plus, hK, List.take_of_length_le]

/-- Ciphertext policies: encapsulation succeeds for every policy text, and a key whose attributes satisfy it opens
the inner ciphertext to `r ‖ K`, whose second half is the session key. Missing is the step after that, the comparison
with a second encryption, which always fails (`C135_decapsulation_violated`). -/
theorem C135_cp_inner_partial (env : Env G1 G2 GT) (hb : Bilinear q env.e) (hnd : env.ndebug = false)
    (hmd : ∀ x, (env.md x).length = 32)
    (c c1 : Ctx G1 G2 GT) (mpkID mskID keyID : Bytes) (pr : ParamRand q G1 G2) (kr er : Rand q)
    (hgen : Scheme.generateParams env .cp c mpkID mskID pr = .ok (none, c1))
    (s : Bytes) (p : Policy) (hp : createPolicyTree env.mktime s = .ok (some p)) (al : AttrList)
    (hrows : (Scheme.rowLabels env.md p).Nodup) (hattrs : Scheme.NoClash env.md al.attrs)
    (hsat : Satisfies al.attrs p) (ct : Ciphertext G1 G2 GT) (r K : Bytes) (hr : r.length = 32) (hK : K.length = 32) :
    ∃ c2 ct' cE' cD', Scheme.generateKey env .cp c1 (.attrs al) keyID mpkID mskID kr = .ok (none, c2) ∧
      encryptKEM env .cp c2 mpkID (.policy p) r K er ct = .ok (.ok (K, ct'), cE') ∧
      Scheme.decrypt q env .cp c2 keyID ct' = .ok (none, r ++ K, cD') ∧
      BS.getSubset (r ++ K) 32 32 = K := by
  obtain ⟨mpk, c2, dk, -, hk, hs, hpk, hrd, h⟩ := Scheme.C46_cp_round_trip env hb hnd hmd c c1 mpkID mskID keyID pr kr er
    hgen s p hp al hrows hattrs hsat ct (BS.plus r K)
  obtain ⟨ct', cE', cD', he, hd⟩ := h c2 c2 mpkID keyID hrd hrd hpk hs
  obtain ⟨k, hk1, hk2⟩ := setSymmetricKey_32 hK
  refine ⟨c2, ct', cE', cD', hk, ?_, hd, getSubset_second r K 32 hr hK⟩
  simp only [encryptKEM, he, Res.ok_bind, hk1, Scheme.caught, hk2]

/-- Key policies: encapsulation succeeds for every list of attributes, and a key whose policy they satisfy opens
the inner ciphertext to `r ‖ K`, whose second half is the session key. Missing is the step after that, the comparison
with a second encryption, which always fails (`C135_decapsulation_violated`). -/
theorem C135_kp_inner_partial (env : Env G1 G2 GT) (hb : Bilinear q env.e) (hnd : env.ndebug = false)
    (hmd : ∀ x, (env.md x).length = 32)
    (c c1 : Ctx G1 G2 GT) (mpkID mskID keyID : Bytes) (pr : ParamRand q G1 G2) (kr er : Rand q)
    (hgen : Scheme.generateParams env .kp c mpkID mskID pr = .ok (none, c1))
    (s : Bytes) (p : Policy) (hp : createPolicyTree env.mktime s = .ok (some p)) (al : AttrList)
    (hrows : (Scheme.rowLabels env.md p).Nodup) (hattrs : Scheme.NoClash env.md al.attrs)
    (hsat : Satisfies al.attrs p) (ct : Ciphertext G1 G2 GT) (r K : Bytes) (hr : r.length = 32) (hK : K.length = 32) :
    ∃ c2 ct' cE' cD', Scheme.generateKey env .kp c1 (.policy p) keyID mpkID mskID kr = .ok (none, c2) ∧
      encryptKEM env .kp c2 mpkID (.attrs al) r K er ct = .ok (.ok (K, ct'), cE') ∧
      Scheme.decrypt q env .kp c2 keyID ct' = .ok (none, r ++ K, cD') ∧
      BS.getSubset (r ++ K) 32 32 = K := by
  obtain ⟨mpk, c2, dk, -, hk, hs, hpk, hrd, h⟩ := Scheme.C46_kp_round_trip env hb hnd hmd c c1 mpkID mskID keyID pr kr er
    hgen s p hp al hrows hattrs hsat ct (BS.plus r K)
  obtain ⟨ct', cE', cD', he, hd⟩ := h c2 c2 mpkID keyID hrd hrd hpk hs
  obtain ⟨k, hk1, hk2⟩ := setSymmetricKey_32 hK
  refine ⟨c2, ct', cE', cD', hk, ?_, hd, getSubset_second r K 32 hr hK⟩
  simp only [encryptKEM, he, Res.ok_bind, hk1, Scheme.caught, hk2]

example (S : StdSort) (sch : Scheme) (pr : ParamRand 5 (ZMod 5) (ZMod 5)) :
    Bilinear 5 (Scheme.Toy.env Scheme.Toy.mk0 S).e ∧ (Scheme.Toy.env Scheme.Toy.mk0 S).ndebug = false ∧ (∀ x, ((Scheme.Toy.env Scheme.Toy.mk0 S).md x).length = 32) ∧
    (∃ (c c1 : Ctx (ZMod 5) (ZMod 5) (ZMod 5)), Scheme.generateParams (Scheme.Toy.env Scheme.Toy.mk0 S) sch c b!"mpk" b!"msk" pr = .ok (none, c1)) ∧
    ∃ p al, createPolicyTree Scheme.Toy.mk0 b!"a and (b or c)" = .ok (some p) ∧ createAttributeList Scheme.Toy.mk0 b!"|a|c" = .ok (some al) ∧
      (Scheme.rowLabels (Scheme.Toy.env Scheme.Toy.mk0 S).md p).Nodup ∧ Scheme.NoClash (Scheme.Toy.env Scheme.Toy.mk0 S).md al.attrs ∧
      Satisfies al.attrs p ∧ (List.replicate 32 (7 : UInt8)).length = 32 := by
  obtain ⟨c1, hg⟩ := Scheme.Toy.gen Scheme.Toy.mk0 S sch pr
  obtain ⟨p, al, h1, h2, h3, h4⟩ := Scheme.texts (Scheme.Toy.text3 Scheme.Toy.mk0) (Scheme.Toy.list3 Scheme.Toy.mk0) Scheme.Toy.pct3
  have hn : Scheme.NoClash (Scheme.Toy.env Scheme.Toy.mk0 S).md (Scheme.rowNames p) := by
    rw [Scheme.Toy.names3 h1]; exact Scheme.Toy.short_noClash (by decide)
  refine ⟨Scheme.Toy.bilinear Scheme.Toy.mk0 S, rfl, Scheme.Toy.digest Scheme.Toy.mk0 S, ⟨_, c1, hg⟩, p, al, h1, h2,
    Scheme.rowLabels_nodup h3 hn, ?_, h4.mpr (Scheme.Toy.true3 Scheme.Toy.mk0), by simp⟩
  rw [Scheme.Toy.attrs3 Scheme.Toy.mk0 h2]
  exact Scheme.Toy.short_noClash (by decide)

/-- What the transform refuses, and with which code: no plaintext, no input, and whatever the inner scheme refuses. -/
theorem C135_refusals (g : Gcm) (env : Env G1 G2 GT) (sch : Scheme) (c : Ctx G1 G2 GT) (mpkID : Bytes) (input : FInput)
    (pt r K iv : Bytes) (er : Rand q) (ct ct1 ct2 : Ciphertext G1 G2 GT) :
    encrypt g env sch c mpkID input [] r K iv er ct1 ct2 = .ok (.error .noPlaintextSpecified, c) ∧
    encryptKEM env sch c mpkID .null r K er ct = .ok (.error .invalidInput, c) ∧
    (∀ e c', input ≠ .null → Scheme.encrypt env sch c mpkID input (BS.plus r K) er ct = .ok (.error e, c') →
      encryptKEM env sch c mpkID input r K er ct = .ok (.error .encryptionError, c')) ∧
    (∀ e c', encryptKEM env sch c mpkID input r K er ct1 = .ok (.error e, c') → pt ≠ [] →
      encrypt g env sch c mpkID input pt r K iv er ct1 ct2 = .ok (.error e, c')) := by
  refine ⟨rfl, rfl, ?_, ?_⟩
  · intro e c' hn h
    cases input with
    | null => exact (hn rfl).elim
    | policy p => simp only [encryptKEM, h, Res.ok_bind]
    | attrs l => simp only [encryptKEM, h, Res.ok_bind]
  · intro e c' h hp
    have : pt.length ≠ 0 := fun h0 => hp (List.length_eq_zero_iff.mp h0)
    simp only [encrypt, if_neg this, h, Res.ok_bind]

/-- A policy for the key-policy scheme is refused by the inner scheme. -/
example (S : StdSort) (c : Ctx (ZMod 5) (ZMod 5) (ZMod 5)) (p : Policy) (er : Rand 5) (ct : Ciphertext (ZMod 5) (ZMod 5) (ZMod 5)) :
    ∃ e c', Scheme.encrypt (Scheme.Toy.env Scheme.Toy.mk0 S) .kp c b!"mpk" (.policy p) (BS.plus [1] [2]) er ct = .ok (.error e, c') :=
  ⟨_, _, rfl⟩

end Abe.Cca
