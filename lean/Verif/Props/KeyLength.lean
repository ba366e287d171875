import Verif.Props.Scheme
/-!
# The length of encapsulated keys (C88)
-/
set_option linter.unusedSimpArgs false
set_option linter.unusedSectionVars false
set_option autoImplicit false
namespace Abe.Scheme
variable {q : ℕ} [Fact q.Prime]
variable {G1 G2 GT : Type} [AddCommGroup G1] [AddCommGroup G2] [AddCommGroup GT]
variable [Module (ZMod q) G1] [Module (ZMod q) G2] [Module (ZMod q) GT]

theorem caught_eq_ok {α : Type} {x : Res α} {a : α} (h : caught x = .ok (.ok a)) : x = .ok a := by
  unfold caught at h
  split at h <;> simp_all

/-- The answer of key derivation to a request for `len` bytes. -/
def lengthAnswer (len : Nat) : Option Err :=
  if len = 16 ∨ len = 32 then none else if len = 0 then some .invalidInput else some .invalidLength

theorem symKeyOf_eq (env : Env G1 G2 GT) (x : GT) (len : Nat) : symKeyOf env x len =
    match lengthAnswer len with
    | none => .ok (env.kdf len (env.md (groupSerialize 0xB4 (env.wT x))))
    | some e => .throw e := by
  unfold symKeyOf lengthAnswer
  by_cases h0 : len = 0
  · subst h0; simp
  · by_cases h : len = 16 ∨ len = 32
    · rcases h with rfl | rfl <;> simp
    · have h' := not_or.mp h
      simp [h0, h'.1, h'.2]

/-- Encapsulation up to the derivation of the key does not depend on the length. -/
theorem cpEnc_len {env : Env G1 G2 GT} {c : Ctx G1 G2 GT} {mpk : Key G1 G2 GT} {p : Policy} {len : Nat} {r : Rand q}
    {ct ct' : Ciphertext G1 G2 GT} {key : Bytes} (h : cpEncBody env c mpk p len r ct = .ok (key, ct')) :
    ∃ x : GT, symKeyOf env x len = .ok key ∧ ∀ n, cpEncBody env c mpk p n r ct = (do let k ← symKeyOf env x n; .ok (k, ct')) := by
  unfold cpEncBody at h ⊢
  obtain ⟨k, h1, h⟩ := (Res.bind_eq_ok _ _ _).mp h
  obtain ⟨u, h2, h⟩ := (Res.bind_eq_ok _ _ _).mp h
  obtain ⟨A0, h3, h⟩ := (Res.bind_eq_ok _ _ _).mp h
  obtain ⟨A, h4, h⟩ := (Res.bind_eq_ok _ _ _).mp h
  obtain ⟨⟨sh, m⟩, h5, h⟩ := (Res.bind_eq_ok _ _ _).mp h
  obtain ⟨d, h6, h⟩ := (Res.bind_eq_ok _ _ _).mp h
  obtain ⟨g0, h7, h⟩ := (Res.bind_eq_ok _ _ _).mp h
  obtain ⟨g1, h8, h⟩ := (Res.bind_eq_ok _ _ _).mp h
  obtain ⟨d1, h9, h⟩ := (Res.bind_eq_ok _ _ _).mp h
  obtain ⟨d2, h10, h⟩ := (Res.bind_eq_ok _ _ _).mp h
  obtain ⟨k', h11, h⟩ := (Res.bind_eq_ok _ _ _).mp h
  cases h
  refine ⟨_, h11, fun n => ?_⟩
  simp only [h1, h2, h3, h4, h5, h6, h7, h8, h9, h10, Res.ok_bind]

theorem kpEnc_len {env : Env G1 G2 GT} {c : Ctx G1 G2 GT} {mpk : Key G1 G2 GT} {l : AttrList} {len : Nat} {r : Rand q}
    {ct ct' : Ciphertext G1 G2 GT} {key : Bytes} (h : kpEncBody env c mpk l len r ct = .ok (key, ct')) :
    ∃ x : GT, symKeyOf env x len = .ok key ∧ ∀ n, kpEncBody env c mpk l n r ct = (do let k ← symKeyOf env x n; .ok (k, ct')) := by
  unfold kpEncBody at h ⊢
  obtain ⟨k, h1, h⟩ := (Res.bind_eq_ok _ _ _).mp h
  obtain ⟨u, h2, h⟩ := (Res.bind_eq_ok _ _ _).mp h
  obtain ⟨A0, h3, h⟩ := (Res.bind_eq_ok _ _ _).mp h
  obtain ⟨A, h4, h⟩ := (Res.bind_eq_ok _ _ _).mp h
  obtain ⟨g0, h7, h⟩ := (Res.bind_eq_ok _ _ _).mp h
  obtain ⟨g1, h8, h⟩ := (Res.bind_eq_ok _ _ _).mp h
  obtain ⟨d1, h9, h⟩ := (Res.bind_eq_ok _ _ _).mp h
  obtain ⟨d2, h10, h⟩ := (Res.bind_eq_ok _ _ _).mp h
  obtain ⟨d3, h12, h⟩ := (Res.bind_eq_ok _ _ _).mp h
  obtain ⟨k', h11, h⟩ := (Res.bind_eq_ok _ _ _).mp h
  cases h
  refine ⟨_, h11, fun n => ?_⟩
  simp only [h1, h2, h3, h4, h7, h8, h9, h10, h12, Res.ok_bind]

theorem cpDec_len {env : Env G1 G2 GT} {c : Ctx G1 G2 GT} {dk ct : Container G1 G2 GT} {len : Nat} {key : Bytes}
    (h : cpDecBody q env c dk ct len = .ok key) :
    ∃ x : GT, symKeyOf env x len = .ok key ∧ ∀ n, cpDecBody q env c dk ct n = symKeyOf env x n := by
  unfold cpDecBody at h ⊢
  obtain ⟨inp, h1, h⟩ := (Res.bind_eq_ok _ _ _).mp h
  obtain ⟨t0, h2, h⟩ := (Res.bind_eq_ok _ _ _).mp h
  obtain ⟨t, h3, h⟩ := (Res.bind_eq_ok _ _ _).mp h
  obtain ⟨pol, h4, h⟩ := (Res.bind_eq_ok _ _ _).mp h
  obtain ⟨al, h5, h⟩ := (Res.bind_eq_ok _ _ _).mp h
  obtain ⟨⟨good, o, m⟩, h6, h⟩ := (Res.bind_eq_ok _ _ _).mp h
  simp only [h1, h2, h3, h4, h5, h6, Res.ok_bind]
  cases good with
  | false => cases h
  | true =>
    simp only [Bool.true_eq_false, if_false] at h ⊢
    obtain ⟨⟨p1, l⟩, h7, h⟩ := (Res.bind_eq_ok _ _ _).mp h
    obtain ⟨u, h8, h⟩ := (Res.bind_eq_ok _ _ _).mp h
    obtain ⟨pT, h9, h⟩ := (Res.bind_eq_ok _ _ _).mp h
    obtain ⟨C, h10, h⟩ := (Res.bind_eq_ok _ _ _).mp h
    obtain ⟨K, h11, h⟩ := (Res.bind_eq_ok _ _ _).mp h
    obtain ⟨L, h12, h⟩ := (Res.bind_eq_ok _ _ _).mp h
    obtain ⟨C', h13, h⟩ := (Res.bind_eq_ok _ _ _).mp h
    obtain ⟨K', h14, h⟩ := (Res.bind_eq_ok _ _ _).mp h
    obtain ⟨L', h15, h⟩ := (Res.bind_eq_ok _ _ _).mp h
    refine ⟨_, h, fun n => ?_⟩
    simp only [h7, h8, h9, h10, h11, h12, h13, h14, h15, Res.ok_bind]

theorem kpDec_len {env : Env G1 G2 GT} {c : Ctx G1 G2 GT} {dk ct : Container G1 G2 GT} {len : Nat} {key : Bytes}
    (h : kpDecBody q env c dk ct len = .ok key) :
    ∃ x : GT, symKeyOf env x len = .ok key ∧ ∀ n, kpDecBody q env c dk ct n = symKeyOf env x n := by
  unfold kpDecBody at h ⊢
  obtain ⟨t0, h2, h⟩ := (Res.bind_eq_ok _ _ _).mp h
  obtain ⟨t, h3, h⟩ := (Res.bind_eq_ok _ _ _).mp h
  obtain ⟨pol, h4, h⟩ := (Res.bind_eq_ok _ _ _).mp h
  obtain ⟨inp, h1, h⟩ := (Res.bind_eq_ok _ _ _).mp h
  obtain ⟨al, h5, h⟩ := (Res.bind_eq_ok _ _ _).mp h
  obtain ⟨⟨good, o, m⟩, h6, h⟩ := (Res.bind_eq_ok _ _ _).mp h
  simp only [h1, h2, h3, h4, h5, h6, Res.ok_bind]
  cases good with
  | false => cases h
  | true =>
    simp only [Bool.true_eq_false, if_false] at h ⊢
    obtain ⟨⟨p1, l⟩, h7, h⟩ := (Res.bind_eq_ok _ _ _).mp h
    obtain ⟨u, h8, h⟩ := (Res.bind_eq_ok _ _ _).mp h
    obtain ⟨pT, h9, h⟩ := (Res.bind_eq_ok _ _ _).mp h
    obtain ⟨C, h10, h⟩ := (Res.bind_eq_ok _ _ _).mp h
    obtain ⟨C', h13, h⟩ := (Res.bind_eq_ok _ _ _).mp h
    refine ⟨_, h, fun n => ?_⟩
    simp only [h7, h8, h9, h10, h13, Res.ok_bind]

theorem caught_throw {α : Type} {len : Nat} {e : Err} (h : lengthAnswer len = some e) :
    caught (.throw e : Res α) = .ok (.error e) := by
  unfold lengthAnswer at h
  split at h
  · cases h
  · split at h <;> cases h <;> rfl

/-- **C88.** If encapsulation succeeds with some length, this length is 16 or 32, and with any other length the same
call answers `invalidInput` for 0 and `invalidLength` else, never a key. The keys are what the key derivation
function returns for the length and the same input. -/
theorem C88_encapsulated_length (env : Env G1 G2 GT) (sch : Scheme) (c c' : Ctx G1 G2 GT) (mpkID : Bytes) (input : FInput)
    (len : Nat) (r : Rand q) (ct ct' : Ciphertext G1 G2 GT) (key : Bytes)
    (h : encryptKEM env sch c mpkID input len r ct = .ok (.ok (key, ct'), c')) :
    (len = 16 ∨ len = 32) ∧ ∃ z : Bytes, key = env.kdf len z ∧ ∀ n,
      encryptKEM env sch c mpkID input n r ct =
        .ok (if n = 16 ∨ n = 32 then .ok (env.kdf n z, ct') else if n = 0 then .error .invalidInput else .error .invalidLength, c') := by
  have key' : ∀ (body : Nat → Res (Bytes × Ciphertext G1 G2 GT)) (x : GT), symKeyOf env x len = .ok key →
      (∀ n, body n = (do let k ← symKeyOf env x n; .ok (k, ct'))) → (len = 16 ∨ len = 32) ∧ ∃ z : Bytes, key = env.kdf len z ∧ ∀ n,
      caught (body n) = .ok (if n = 16 ∨ n = 32 then .ok (env.kdf n z, ct') else if n = 0 then .error .invalidInput else .error .invalidLength) := by
    intro body x hk hb
    rw [symKeyOf_eq] at hk
    refine ⟨?_, env.md (groupSerialize 0xB4 (env.wT x)), ?_, ?_⟩
    · by_contra hne
      unfold lengthAnswer at hk
      rw [if_neg hne] at hk
      split at hk
      · rename_i h; split at h <;> cases h
      · cases hk
    · split at hk
      · cases hk; rfl
      · cases hk
    · intro n
      rw [hb, symKeyOf_eq]
      unfold lengthAnswer
      by_cases h1 : n = 16 ∨ n = 32
      · simp only [if_pos h1]; rfl
      · simp only [if_neg h1]
        by_cases h0 : n = 0
        · simp only [if_pos h0]; rfl
        · simp only [if_neg h0]; rfl
  unfold encryptKEM at h ⊢
  cases sch with
  | cp =>
    cases input with
    | attrs l => simp at h
    | null => simp at h
    | policy p =>
      simp only [Bool.true_eq_false, if_false] at h ⊢
      cases hpk : (c.ks.getPublicKey mpkID).1 with
      | none => rw [hpk] at h; simp [caught] at h
      | some mpk =>
        rw [hpk] at h
        obtain ⟨res, h1, h2⟩ := (Res.bind_eq_ok _ _ _).mp h
        cases h2
        obtain ⟨x, hx1, hx2⟩ := cpEnc_len (caught_eq_ok h1)
        obtain ⟨g1, z, g2, g3⟩ := key' _ x hx1 hx2
        refine ⟨g1, z, g2, fun n => ?_⟩
        simp only [g3, Res.ok_bind]
  | kp =>
    cases input with
    | policy l => simp at h
    | null => simp at h
    | attrs p =>
      simp only [Bool.true_eq_false, if_false] at h ⊢
      cases hpk : (c.ks.getPublicKey mpkID).1 with
      | none => rw [hpk] at h; simp [caught] at h
      | some mpk =>
        rw [hpk] at h
        obtain ⟨res, h1, h2⟩ := (Res.bind_eq_ok _ _ _).mp h
        cases h2
        obtain ⟨x, hx1, hx2⟩ := kpEnc_len (caught_eq_ok h1)
        obtain ⟨g1, z, g2, g3⟩ := key' _ x hx1 hx2
        refine ⟨g1, z, g2, fun n => ?_⟩
        simp only [g3, Res.ok_bind]

/-- The same for decapsulation. -/
theorem C88_decapsulated_length (env : Env G1 G2 GT) (sch : Scheme) (c c' : Ctx G1 G2 GT) (keyID : Bytes)
    (len : Nat) (ct : Ciphertext G1 G2 GT) (key : Bytes)
    (h : decryptKEM q env sch c keyID ct len = .ok (.ok key, c')) :
    (len = 16 ∨ len = 32) ∧ ∃ z : Bytes, key = env.kdf len z ∧ ∀ n,
      decryptKEM q env sch c keyID ct n =
        .ok (if n = 16 ∨ n = 32 then .ok (env.kdf n z) else if n = 0 then .error .invalidInput else .error .invalidLength, c') := by
  have key' : ∀ (body : Nat → Res Bytes) (x : GT), symKeyOf env x len = .ok key →
      (∀ n, body n = symKeyOf env x n) → (len = 16 ∨ len = 32) ∧ ∃ z : Bytes, key = env.kdf len z ∧ ∀ n,
      caught (body n) = .ok (if n = 16 ∨ n = 32 then .ok (env.kdf n z) else if n = 0 then .error .invalidInput else .error .invalidLength) := by
    intro body x hk hb
    rw [symKeyOf_eq] at hk
    refine ⟨?_, env.md (groupSerialize 0xB4 (env.wT x)), ?_, ?_⟩
    · by_contra hne
      unfold lengthAnswer at hk
      rw [if_neg hne] at hk
      split at hk
      · rename_i h; split at h <;> cases h
      · cases hk
    · split at hk
      · cases hk; rfl
      · cases hk
    · intro n
      rw [hb, symKeyOf_eq]
      unfold lengthAnswer
      by_cases h1 : n = 16 ∨ n = 32
      · simp only [if_pos h1]; rfl
      · simp only [if_neg h1]
        by_cases h0 : n = 0
        · simp only [if_pos h0]; rfl
        · simp only [if_neg h0]; rfl
  unfold decryptKEM at h ⊢
  cases hsk : (c.ks.getSecretKey keyID).1 with
  | none => simp [hsk, caught] at h
  | some dk =>
    simp only [hsk] at h ⊢
    cases sch with
    | cp =>
      obtain ⟨res, h1, h2⟩ := (Res.bind_eq_ok _ _ _).mp h
      cases h2
      obtain ⟨x, hx1, hx2⟩ := cpDec_len (caught_eq_ok h1)
      obtain ⟨g1, z, g2, g3⟩ := key' _ x hx1 hx2
      refine ⟨g1, z, g2, fun n => ?_⟩
      simp only [g3, Res.ok_bind]
    | kp =>
      obtain ⟨res, h1, h2⟩ := (Res.bind_eq_ok _ _ _).mp h
      cases h2
      obtain ⟨x, hx1, hx2⟩ := kpDec_len (caught_eq_ok h1)
      obtain ⟨g1, z, g2, g3⟩ := key' _ x hx1 hx2
      refine ⟨g1, z, g2, fun n => ?_⟩
      simp only [g3, Res.ok_bind]

/-- Encapsulation for `a and (b or c)` and decapsulation with a key for `|a|c`, 16 bytes. -/
example (S : StdSort) (pr : ParamRand 5 (ZMod 5) (ZMod 5)) (kr er : Rand 5) (ct : Ciphertext (ZMod 5) (ZMod 5) (ZMod 5)) :
    ∃ c p key ct' c' c'', encryptKEM (Toy.env Toy.mk0 S) .cp c b!"mpk" (.policy p) 16 er ct = .ok (.ok (key, ct'), c') ∧
      decryptKEM 5 (Toy.env Toy.mk0 S) .cp c b!"key" ct' 16 = .ok (.ok key, c'') := by
  obtain ⟨c1, hg⟩ := Toy.gen Toy.mk0 S .cp pr
  obtain ⟨p, al, h1, h2, h3, h4⟩ := texts (Toy.text3 Toy.mk0) (Toy.list3 Toy.mk0) Toy.pct3
  have hn : NoClash (Toy.env Toy.mk0 S).md (rowNames p) := by
    rw [Toy.names3 h1]; exact Toy.short_noClash (by decide)
  have ha : NoClash (Toy.env Toy.mk0 S).md al.attrs := by
    rw [Toy.attrs3 Toy.mk0 h2]; exact Toy.short_noClash (by decide)
  obtain ⟨mpk, c2, dk, -, -, hs, hp, hr, h⟩ := C44_cp_decapsulation (Toy.env Toy.mk0 S) (Toy.bilinear Toy.mk0 S) rfl _ c1 b!"mpk" b!"msk"
    b!"key" pr kr er hg _ p h1 al (rowLabels_nodup h3 hn) ha (h4.mpr (Toy.true3 Toy.mk0)) 16 (.inl rfl) ct
  obtain ⟨ct', cE, cD, e1, e2⟩ := h c2 c2 b!"mpk" b!"key" hr hr hp hs
  exact ⟨c2, p, _, ct', cE, cD, e1, e2⟩

end Abe.Scheme
