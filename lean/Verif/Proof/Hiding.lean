import Verif.Spec.Hiding
import Verif.Proof.Authentic
/-!
# Encapsulation does not depend on the mask
-/
set_option linter.unusedSimpArgs false
set_option linter.unusedSectionVars false
set_option autoImplicit false
namespace Abe
namespace Hiding
open Scheme Authentic
variable {q : ℕ} [Fact q.Prime]
variable {G1 G2 GT : Type} [AddCommGroup G1] [AddCommGroup G2] [AddCommGroup GT]
variable [Module (ZMod q) G1] [Module (ZMod q) G2] [Module (ZMod q) GT]

theorem answering_other {md : Bytes → Bytes} {K : Bytes} {f : Answers} {x : Bytes} (h : ¬ MaskInput K x) : answering md K f x = md x := by
  unfold answering
  split
  · rw [if_neg]
    rintro ⟨rfl, rfl⟩
    exact h ⟨_, rfl⟩
  · rfl

theorem answering_mask (md : Bytes → Bytes) (K : Bytes) (f : Answers) (i : UInt8) : answering md K f (i :: 0x2A :: K) = List.ofFn (f i) := by
  simp [answering]

theorem answering_length {md : Bytes → Bytes} (hmd : ∀ x, (md x).length = 32) (K : Bytes) (f : Answers) (x : Bytes) :
    (answering md K f x).length = 32 := by
  unfold answering
  split
  · split
    · simp
    · exact hmd _
  · exact hmd _

/-- The environment with another hash function. -/
abbrev withMd (env : Env G1 G2 GT) (md : Bytes → Bytes) : Env G1 G2 GT := { env with md := md }

theorem symKeyOf_md {env : Env G1 G2 GT} {md : Bytes → Bytes} {x : GT} {len : Nat}
    (h : md (groupSerialize 0xB4 (env.wT x)) = env.md (groupSerialize 0xB4 (env.wT x))) :
    symKeyOf (withMd env md) x len = symKeyOf env x len := by
  unfold symKeyOf
  simp only [h]

theorem hashKey_md {md md' : Bytes → Bytes} {n : Bytes} (h : md n = md' n) : hashKey md n = hashKey md' n := by
  unfold hashKey; rw [h]

theorem cpEncLoop_md {env : Env G1 G2 GT} {md : Bytes → Bytes} (mpk : Key G1 G2 GT) (k : Option Bytes) (r : Nat → ZMod q) :
    ∀ (rows : List (Bytes × (Bytes × ZMod q))) (i : Nat) (d : Container G1 G2 GT),
    (∀ row ∈ rows, md row.1 = env.md row.1 ∧ ∀ kb, k = some kb → md (kb ++ row.2.1) = env.md (kb ++ row.2.1)) →
    cpEncLoop (withMd env md) mpk k r i rows d = cpEncLoop env mpk k r i rows d
  | [], _, _, _ => rfl
  | row :: rows, i, d, h => by
    obtain ⟨h1, h2⟩ := h row (by simp)
    have ih := fun j e => cpEncLoop_md (env := env) (md := md) mpk k r rows j e (fun r hr => h r (by simp [hr]))
    cases k with
    | none => simp only [cpEncLoop, hashKey_md h1, deref, Res.ok_bind]; rfl
    | some kb => simp only [cpEncLoop, hashKey_md h1, hashToG1, h2 kb rfl, ih, deref_some, Res.ok_bind]

theorem kpEncLoop_md {env : Env G1 G2 GT} {md : Bytes → Bytes} (k : Option Bytes) (t : ZMod q) :
    ∀ (as : List Bytes) (d : Container G1 G2 GT),
    (∀ a ∈ as, md a = env.md a ∧ ∀ kb, k = some kb → md (kb ++ a) = env.md (kb ++ a)) →
    kpEncLoop (withMd env md) k t as d = kpEncLoop env k t as d
  | [], _, _ => rfl
  | a :: as, d, h => by
    obtain ⟨h1, h2⟩ := h a (by simp)
    have ih := fun e => kpEncLoop_md (env := env) (md := md) k t as e (fun r hr => h r (by simp [hr]))
    cases k with
    | none => simp only [kpEncLoop, deref]; rfl
    | some kb => simp only [kpEncLoop, hashKey_md h1, hashToG1, h2 kb rfl, ih, deref_some, Res.ok_bind]

theorem rows_named {p : Policy} {mk : Mktime} {s : Bytes} (hp : createPolicyTree mk s = .ok (some p)) (x : ZMod q) (tape : Nat → ZMod q) :
    ∃ sh n, shareSecret false {} (some p) x tape = .ok (sh, n) ∧
      ∀ row ∈ sh.results, row.1 ∈ usedNames (.policy p) ∧ row.2.1 ∈ usedNames (.policy p) := by
  obtain ⟨hcomp, t, hroot, hao, hbin, hfr, hidx⟩ := accepted_shape hp
  have hi : IdxOkT (effCount ({} : LSSS (ZMod q)) p) t := fun l hl _ => hidx l hl
  refine ⟨_, _, shareSecret_ok {} p t x tape hroot hao.pos hi, ?_⟩
  intro row hrow
  simp only [usedNames, hroot]
  rcases SMap.mem_addRows _ _ _ hrow with hm' | hm'
  · obtain ⟨⟨lf, v⟩, hx, rfl⟩ := List.mem_map.mp hm'
    have : lf ∈ (emit tape t x 0).map Prod.fst := List.mem_map.mpr ⟨_, hx, rfl⟩
    rw [emit_fst] at this
    have hl := (rleaves_perm t).mem_iff.mp this
    exact ⟨List.mem_append_right _ (List.mem_map.mpr ⟨lf, hl, rfl⟩), List.mem_append_left _ (List.mem_map.mpr ⟨lf, hl, rfl⟩)⟩
  · simp at hm'

theorem getBytes_some {c : Container G1 G2 GT} {n : Bytes} {x : Option Bytes} {b : Bytes} (h : getBytes c n = .ok x) (hb : x = some b) :
    SMap.find n c = some (.bytes b) := by
  subst hb
  unfold getBytes Container.getComponent at h
  generalize SMap.find n c = f at h ⊢
  cases f with
  | none => simp at h
  | some o => cases o <;> simp_all

theorem bind_congr_ok {α β : Type} {x : Res α} {f g : α → Res β} (h : ∀ a, x = .ok a → f a = g a) : (x >>= f) = (x >>= g) := by
  cases x with
  | ok a => exact h a rfl
  | throw e => rfl
  | ub => rfl
  | abort => rfl

/-- Encapsulation asks the hash function for names, points and the element only. -/
theorem encryptKEM_md (env : Env G1 G2 GT) (hnd : env.ndebug = false) (md : Bytes → Bytes) (sch : Scheme) (c : Ctx G1 G2 GT) (mpkID : Bytes)
    (input : FInput) (len : Nat) (r : Rand q) (ct : Ciphertext G1 G2 GT)
    (hp : ∀ p, input = .policy p → ∃ s, createPolicyTree env.mktime s = .ok (some p))
    (hn : ∀ n ∈ usedNames input, md n = env.md n ∧ ∀ mpk k, (c.ks.getPublicKey mpkID).1 = some mpk →
      SMap.find b!"k" mpk.comps = some (.bytes k) → md (k ++ n) = env.md (k ++ n))
    (hs : ∀ x, md (groupSerialize 0xB4 (env.wT x)) = env.md (groupSerialize 0xB4 (env.wT x))) :
    encryptKEM (withMd env md) sch c mpkID input len r ct = encryptKEM env sch c mpkID input len r ct := by
  unfold encryptKEM
  generalize hpk : c.ks.getPublicKey mpkID = pk at hn ⊢
  obtain ⟨o, ks⟩ := pk
  cases o with
  | none => rfl
  | some mpk =>
    cases sch <;> cases input <;> try rfl
    · -- ciphertext-policy
      rename_i p
      obtain ⟨s, hp⟩ := hp p rfl
      obtain ⟨sh, n, h1, h2⟩ := rows_named hp r.x r.tape
      have : cpEncBody (withMd env md) c mpk p len r ct = cpEncBody env c mpk p len r ct := by
        unfold cpEncBody
        simp only [hnd, h1, Res.ok_bind]
        refine bind_congr_ok fun k hk => ?_
        have hloop := fun d => cpEncLoop_md (env := env) (md := md) mpk k r.r sh.results 0 d (fun row hr =>
          ⟨(hn _ (h2 row hr).1).1, fun kb hkb => (hn _ (h2 row hr).2).2 mpk kb rfl (getBytes_some hk hkb)⟩)
        simp only [hloop, symKeyOf_md (hs _)]
      simp only [this]
    · -- key-policy
      rename_i l
      have : kpEncBody (withMd env md) c mpk l len r ct = kpEncBody env c mpk l len r ct := by
        unfold kpEncBody
        refine bind_congr_ok fun k hk => ?_
        have hloop := fun d => kpEncLoop_md (env := env) (md := md) k r.x l.attrs d (fun a ha =>
          ⟨(hn a ha).1, fun kb hkb => (hn a ha).2 mpk kb rfl (getBytes_some hk hkb)⟩)
        simp only [hloop, symKeyOf_md (hs _)]
      simp only [this]

/-- The answers changed by the difference of two messages. -/
def shift (p0 p1 : Bytes) (f : Answers) : Answers := fun i j =>
  f i j ^^^ ((p0[32 * i.toNat + j.val]?.getD 0) ^^^ (p1[32 * i.toNat + j.val]?.getD 0))

theorem shift_shift (p0 p1 : Bytes) (f : Answers) : shift p0 p1 (shift p0 p1 f) = f := by
  funext i j
  simp only [shift, UInt8.xor_assoc, UInt8.xor_self, UInt8.xor_zero]

/-- A byte of the mask. -/
theorem answering_byte {md : Bytes → Bytes} (hmd : ∀ x, (md x).length = 32) (K : Bytes) (f : Answers) (n j : Nat) (h : j < n) (_ : n ≤ 8192) :
    (hashFromBytes (answering md K f) K n schemeHashPrefix)[j]? = some (f (UInt8.ofNat (j / 32)) ⟨j % 32, by omega⟩) := by
  rw [(mask_spec (answering_length hmd K f) K n schemeHashPrefix).2 j h]
  show (answering md K f (UInt8.ofNat (j / 32) :: 0x2A :: K))[j % 32]? = _
  rw [answering_mask, List.getElem?_eq_getElem (by rw [List.length_ofFn]; omega), List.getElem_ofFn]

/-- The shifted answers mask the other message to the same bytes. -/
theorem mask_shift {md : Bytes → Bytes} (hmd : ∀ x, (md x).length = 32) (K : Bytes) (f : Answers) (p0 p1 : Bytes) (hl : p0.length = p1.length)
    (hn : p0.length ≤ 8192) :
    xorBytes p1 (hashFromBytes (answering md K (shift p0 p1 f)) K p1.length schemeHashPrefix) =
      xorBytes p0 (hashFromBytes (answering md K f) K p0.length schemeHashPrefix) := by
  have l0 := (mask_spec (answering_length hmd K f) K p0.length schemeHashPrefix).1
  have l1 := (mask_spec (answering_length hmd K (shift p0 p1 f)) K p1.length schemeHashPrefix).1
  apply List.ext_getElem
  · simp only [xorBytes_length]; omega
  · intro j h1 h2
    simp only [xorBytes_length] at h1 h2
    have e0 := answering_byte hmd K f p0.length j (by omega) hn
    have e1 := answering_byte hmd K (shift p0 p1 f) p1.length j (by omega) (by omega)
    rw [List.getElem?_eq_getElem (by omega)] at e0 e1
    simp only [Option.some.injEq] at e0 e1
    simp only [xorBytes, List.getElem_zipWith, e0, e1, shift]
    have hj : 32 * (UInt8.ofNat (j / 32)).toNat + j % 32 = j := by
      simp only [UInt8.toNat_ofNat']
      omega
    rw [hj, List.getElem?_eq_getElem (by omega), List.getElem?_eq_getElem (by omega)]
    simp only [Option.getD_some]
    generalize p0[j] = a; generalize p1[j] = b; generalize f _ _ = m
    rw [UInt8.xor_comm a b, ← UInt8.xor_assoc m, UInt8.xor_comm m b, UInt8.xor_assoc b, ← UInt8.xor_assoc b b, UInt8.xor_self, UInt8.zero_xor, UInt8.xor_comm m a]

end Hiding
end Abe
