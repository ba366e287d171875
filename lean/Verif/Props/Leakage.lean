import Verif.Proof.Leakage
import Verif.Props.Bytes
import Verif.Proof.Container
import Verif.Proof.Scheme
import Verif.Model.Sym
set_option linter.unusedSimpArgs false
set_option linter.unusedSectionVars false
set_option autoImplicit false
/-! # C133: what can be seen of work on secret bytes depends on their lengths only -/
namespace Abe
namespace Leak

/-- The functions with traces are those of the other models: leaving out the trace gives the same outcome. -/
theorem C133_results :
    (∀ a b, (eq a b).res = .ok (BS.eq a b)) ∧
    (∀ a b, (xorAssign a b).res = BS.xorAssign a b) ∧
    (∀ b, (zeroize b).res = .ok (List.replicate b.length 0)) ∧
    (∀ md buf n pre, (hashFromBytes md buf n pre).res = .ok (Scheme.hashFromBytes md buf n pre)) ∧
    (∀ md key msg, (mask md key msg).res =
      BS.xorAssign msg (Scheme.hashFromBytes md key msg.length Scheme.schemeHashPrefix)) ∧
    (∀ md k Z bits info, (deriveKey md k Z bits info).res = Kdf.deriveKey md k Z bits info) ∧
    (∀ md mac key salt info n, (computeHKDF md mac key salt info n).res = .ok (Kdf.computeHKDF md mac key salt info n)) ∧
    (∀ kdf key n, (computeKDF2 kdf key n).res = Kdf.computeKDF2 kdf key n) :=
  ⟨eq_res, xorAssign_res, zeroize_res, hashFromBytes_res, mask_res, deriveKey_res, computeHKDF_res, computeKDF2_res⟩

/-- `operator==` on byte strings, whose comment promises constant time: whatever the bytes are, only the two lengths and the answer can
be seen, not the place of a difference. -/
theorem C133_comparison {a b a' b' : Bytes} (ha : a.length = a'.length) (hb : b.length = b'.length)
    (hans : a = b ↔ a' = b') : (eq a b).trace = (eq a' b').trace := by
  refine eq_trace ha hb ?_
  have key : ∀ x y : Bytes, BS.eq x y = true ↔ x = y := fun x y => C36_eq_iff x y
  rcases hx : BS.eq a' b' with _ | _
  · cases hy : BS.eq a b with
    | false => rfl
    | true => rw [(key _ _).2 (hans.1 ((key _ _).1 hy))] at hx; cases hx
  · exact (key _ _).2 (hans.2 ((key _ _).1 hx))

example : (eq [1, 2, 3] [1, 2, 4]).trace = (eq [9, 9, 9] [1, 2, 4]).trace ∧ (eq [1, 2, 3] [1, 2, 4]).trace.length = 18 :=
  ⟨C133_comparison rfl rfl (by decide), by decide +kernel⟩

/-- It really looks at every byte: of two strings of equal length each position of each is read, also behind a difference. -/
theorem C133_reads_everything {a b : Bytes} (h : a.length = b.length) (i : Nat) (hi : i < a.length) :
    Ev.read 0 i ∈ (eq a b).trace ∧ Ev.read 1 i ∈ (eq a b).trace := by
  have loop : ∀ (n j : Nat) (rc : UInt8), n + j = a.length → j ≤ i →
      Ev.read 0 i ∈ (eqLoop a b n j rc).trace ∧ Ev.read 1 i ∈ (eqLoop a b n j rc).trace := by
    intro n
    induction n with
    | zero => intro j rc hj hji; omega
    | succ n ih =>
      intro j rc hj hji
      have h1 : j < a.length := by omega
      have h2 : j < b.length := by omega
      rw [eqLoop]
      simp only [bind_def, Seen.bind, test, at', h1, h2, decide_true, if_true, see, lift, BS.atR, List.getElem?_eq_getElem h1,
        List.getElem?_eq_getElem h2, List.mem_append, List.mem_cons, List.not_mem_nil, or_false]
      by_cases hij : i = j
      · subst hij
        exact ⟨Or.inr (Or.inl (by simp)), Or.inr (Or.inr (Or.inl (by simp)))⟩
      · have := ih (j + 1) (rc ||| (a[j] ^^^ b[j])) (by omega) (by omega)
        exact ⟨Or.inr (Or.inr (Or.inr this.1)), Or.inr (Or.inr (Or.inr this.2))⟩
  have e := eqLoop_res a b h a.length 0 0 (by omega)
  have := loop a.length 0 0 (by omega) (Nat.zero_le _)
  unfold eq
  simp only [bind_def, Seen.bind, test, ne_eq, h, not_true_eq_false, decide_false, Bool.false_eq_true, if_false]
  rw [← h, e]
  simp only [List.mem_append]
  exact ⟨Or.inr (Or.inl this.1), Or.inr (Or.inl this.2)⟩

example : Ev.read 1 2 ∈ (eq [1, 2, 3] [7, 2, 4]).trace := (C133_reads_everything (a := [1, 2, 3]) (b := [7, 2, 4]) rfl 2 (by decide)).2

/-- Masking a message, in `encrypt` and in `decrypt`: neither the key nor the message shows, only how long they are. -/
theorem C133_masking (md : Digest) {key key' msg msg' : Bytes} (hk : key.length = key'.length) (hm : msg.length = msg'.length) :
    (mask md.fn key msg).trace = (mask md.fn key' msg').trace ∧
    ((mask md.fn key msg).res.isOk = (mask md.fn key' msg').res.isOk) := by
  have h := mask_alike md hk hm
  refine ⟨h.trace, ?_⟩
  have hr := h.res
  cases h1 : (mask md.fn key msg).res <;> cases h2 : (mask md.fn key' msg').res <;> rw [h1, h2] at hr <;>
    first | rfl | exact hr.elim

/-- Wiping a byte string writes every element, whatever it holds. -/
theorem C133_wiping {b b' : Bytes} (h : b.length = b'.length) : (zeroize b).trace = (zeroize b').trace :=
  (zeroize_alike h).trace

/-- Deriving keys: neither secrets nor labels show, only lengths. An exception or undefined behaviour of one is one of the other. -/
theorem C133_derivation (md : Digest) (mac : Hmac) (kdf : Nat → Bytes → Bytes) (k : Kdf) {Z Z' salt salt' info info' : Bytes}
    (hZ : Z.length = Z'.length) (hs : salt.length = salt'.length) (hi : info.length = info'.length) (bits len : UInt32) (n : Nat) :
    (deriveKey md k Z bits info).trace = (deriveKey md k Z' bits info').trace ∧
    (computeHKDF md mac Z salt info n).trace = (computeHKDF md mac Z' salt' info' n).trace ∧
    (computeKDF2 kdf Z len).trace = (computeKDF2 kdf Z' len).trace ∧
    (setSymmetricKey Z).trace = (setSymmetricKey Z').trace :=
  ⟨(deriveKey_alike md k hZ hi bits).trace, (computeHKDF_alike md mac hZ hs hi n).trace, (computeKDF2_alike kdf hZ len).trace,
    (setSymmetricKey_alike hZ).trace⟩

/-- Toy hash and MAC functions for the examples. -/
def toyDigest : Digest := ⟨fun x => List.replicate 32 (x.foldl (fun a b => a + b) 7), fun _ => by simp⟩
/-- See `toyDigest`. -/
def toyHmac : Hmac := ⟨fun k x => List.replicate 32 ((k ++ x).foldl (fun a b => a + b) 7), fun _ _ => by simp⟩

example : (mask toyDigest.fn [1, 2] [5, 6]).trace = (mask toyDigest.fn [3, 3] [0, 9]).trace ∧
    (mask toyDigest.fn [1, 2] [5, 6]).res ≠ (mask toyDigest.fn [3, 3] [0, 9]).res :=
  ⟨(C133_masking toyDigest rfl rfl).1, by
    rw [mask_res, mask_res]
    decide +kernel⟩
example : (zeroize [1, 2]).trace = [.jump true, .jump true, .write 0 0, .jump true, .write 0 1, .jump false] := by decide +kernel
example : (computeHKDF toyDigest toyHmac [1] [] [2] 40).trace = (computeHKDF toyDigest toyHmac [7] [] [9] 40).trace :=
  (C133_derivation (Z := [1]) (Z' := [7]) (salt := []) (salt' := []) (info := [2]) (info' := [9]) toyDigest toyHmac (fun _ _ => []) {} rfl rfl rfl
    0 0 40).2.1
example : (hkdfLoop toyHmac [1] [2] 1 0 [] []).trace = [.jump true, .call [1, 2], .jump false] := by
  have h : ∀ i t o, o.length = 32 → hkdfLoop toyHmac [1] [2] 1 i t o = (do let _ ← test false; pure o) := by
    intro i t o ho
    rw [hkdfLoop, if_neg (by omega)]
  rw [hkdfLoop, if_pos (by decide)]
  simp only [h _ _ _ (show ([] ++ toyHmac.fn [1] ([] ++ [2] ++ [UInt8.ofNat (0 + 1)])).length = 32 by simp [toyHmac])]
  rfl

/-- The digits of a number, without leading zeros, are more than `n` if it is at least `256 ^ n`. -/
theorem natBE_more {n v : Nat} (h : 256 ^ n ≤ v) : n < (natBE v).length := by
  induction n generalizing v with
  | zero => rw [natBE_pos (by simp at h; omega)]; simp
  | succ n ih =>
    have h0 : v ≠ 0 := by
      have := Nat.pow_pos (n := n + 1) (show 0 < 256 by omega)
      omega
    rw [natBE_pos h0, List.length_append, List.length_singleton]
    have := @ih (v / 256) (by rw [Nat.le_div_iff_mul_le (by omega)]; rwa [Nat.pow_succ] at h)
    omega

theorem smartPack_mono {x y : Bytes} (h : x.length < y.length) (p : Bytes) :
    (BS.smartPack p x).length < (BS.smartPack p y).length := by
  unfold BS.smartPack
  split <;> split <;> (try split) <;> (try split) <;> (try split) <;> (try split) <;>
    simp only [List.length_append, List.length_cons, List.length_nil, BS.be16, BS.be32] <;> omega

section
variable {q : Nat} [Fact q.Prime] {G1 G2 GT : Type} [AddCommGroup G1] [AddCommGroup G2] [AddCommGroup GT]
  [Module (ZMod q) G1] [Module (ZMod q) G2] [Module (ZMod q) GT]

/-- Exported secrets are not of constant size: `ZP::serialize` leaves out leading zero bytes. Of two key-policy setups whose secret
exponents lie on different sides of a power of 256, the exported master secret keys have different lengths, so that the length of a
stored or encrypted key says how large its exponent is. -/
theorem C133_exported_length_violated (env : Env G1 G2 GT) (cd : Codec G1 G2 GT) (r r' : Scheme.ParamRand q G1 G2)
    {p p' m m' : Container G1 G2 GT} (h : Scheme.kpParams env r = .ok (p, m)) (h' : Scheme.kpParams env r' = .ok (p', m'))
    (alg : UInt8) (id uid : Bytes) (n : Nat) (hlo : r.alpha.val < 256 ^ n) (hhi : 256 ^ n ≤ r'.alpha.val) :
    ∃ b b', Key.exportBytes cd { alg := alg, uid := uid, id := id, comps := m } = .ok b ∧
      Key.exportBytes cd { alg := alg, uid := uid, id := id, comps := m' } = .ok b' ∧ b.length < b'.length := by
  unfold Scheme.kpParams at h h'
  simp only [Scheme.setComponent_g1, Scheme.setComponent_g2, Scheme.setComponent_gt, Scheme.setComponent_zp, Scheme.setComponent_bytes,
    Res.ok_bind, Res.ok.injEq, Prod.mk.injEq] at h h'
  obtain ⟨_, rfl⟩ := h
  obtain ⟨_, rfl⟩ := h'
  refine ⟨_, _, rfl, rfl, ?_⟩
  have hl : (zpSerialize r.alpha.val).length < (zpSerialize r'.alpha.val).length := by
    have h1 := natBE_length n _ hlo
    have h2 := natBE_more hhi
    simp only [zpSerialize, BS.be16, List.length_cons, List.length_append, List.length_nil]
    omega
  have := smartPack_mono hl (BS.smartPack [] b!"y")
  simp only [BS.pack, Key.header, List.length_append, List.length_nil, BS.be32, List.length_cons]
  omega

end

instance prime257 : Fact (Nat.Prime 257) := ⟨by decide +kernel⟩

example (env : Env (ZMod 257) (ZMod 257) (ZMod 257)) (cd : Codec (ZMod 257) (ZMod 257) (ZMod 257)) :
    ∃ p m p' m', Scheme.kpParams (q := 257) env ⟨1, 1, 255, 0, [], [], []⟩ = .ok (p, m) ∧ Scheme.kpParams (q := 257) env ⟨1, 1, 256, 0, [], [], []⟩ = .ok (p', m') ∧
    ∃ b b', Key.exportBytes cd { alg := 1, uid := [], id := b!"msk", comps := m } = .ok b ∧
      Key.exportBytes cd { alg := 1, uid := [], id := b!"msk", comps := m' } = .ok b' ∧ b.length < b'.length := by
  exact ⟨_, _, _, _, rfl, rfl, C133_exported_length_violated (q := 257) env cd ⟨1, 1, 255, 0, [], [], []⟩ ⟨1, 1, 256, 0, [], [], []⟩ rfl rfl 1 b!"msk" [] 1
    (by decide) (by decide)⟩

end Leak
end Abe
