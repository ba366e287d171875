import Verif.Proof.Authentic
/-!
# Altered ciphertexts (C131)
-/
set_option linter.unusedSimpArgs false
set_option linter.unusedSectionVars false
set_option autoImplicit false
namespace Abe
namespace Authentic
open Scheme
variable {q : ℕ} [Fact q.Prime]
variable {G1 G2 GT : Type} [AddCommGroup G1] [AddCommGroup G2] [AddCommGroup GT]
variable [Module (ZMod q) G1] [Module (ZMod q) G2] [Module (ZMod q) GT]

/-- What decryption depends on: only the components of the scheme and the masked message. If they are as they were, the answer is as
it was, whatever else happened to the ciphertext. What is missing: that alterations of these components are reported. -/
theorem C131_unaltered_partial (env : Env G1 G2 GT) (sch : Scheme) (c : Ctx G1 G2 GT) (keyID : Bytes) (ct ct' : Ciphertext G1 G2 GT)
    (h : ∀ n, Belongs sch n ∨ n = b!"_ED" → SMap.find n ct.comps = SMap.find n ct'.comps) :
    decrypt q env sch c keyID ct = decrypt q env sch c keyID ct' := by
  unfold decrypt
  rw [decryptKEM_congr env sch c keyID ct ct' _ (fun n hn => h n (.inl hn)), getBytes_congr (h _ (.inr rfl))]

/-- The code violates C131: the header of a ciphertext (library version, scheme, uid) can be replaced without effect. -/
theorem C131_header_violated (env : Env G1 G2 GT) (sch : Scheme) (c : Ctx G1 G2 GT) (keyID : Bytes) (ct : Ciphertext G1 G2 GT)
    (version alg : UInt8) (uid : Bytes) :
    decrypt q env sch c keyID ⟨version, alg, uid, ct.comps⟩ = decrypt q env sch c keyID ct :=
  C131_unaltered_partial env sch c keyID _ ct (fun _ _ => rfl)

/-- The code violates C131: whoever knows the plaintext of a ciphertext can turn the ciphertext into one of any other plaintext that
is not longer, without any key. The alteration is computed from the masked message, the old and the new plaintext alone; every
context and key that decrypts the one decrypts the other. -/
theorem C131_forgery_violated (env : Env G1 G2 GT) (hmd : ∀ x, (env.md x).length = 32) (sch : Scheme) (ct : Ciphertext G1 G2 GT) (ed p t : Bytes)
    (hed : SMap.find b!"_ED" ct.comps = some (.bytes ed)) (ht : t.length ≤ p.length) :
    ∃ ct' : Ciphertext G1 G2 GT, SameButData ct' ct ∧ SMap.find b!"_ED" ct'.comps = some (.bytes (xorBytes ed (xorBytes p t))) ∧
      ∀ (c c1 : Ctx G1 G2 GT) (keyID : Bytes), decrypt q env sch c keyID ct = .ok (none, p, c1) →
        decrypt q env sch c keyID ct' = .ok (none, t, c1) := by
  refine ⟨⟨ct.version, ct.alg, ct.uid, SMap.insert b!"_ED" (.bytes (xorBytes ed (xorBytes p t))) ct.comps⟩, ⟨rfl, rfl, rfl, ?_⟩, ?_, ?_⟩
  · intro n hn
    rw [SMap.find_insert, if_neg hn]
  · rw [SMap.find_insert, if_pos rfl]
  · intro c c1 keyID h
    obtain ⟨K, ed', hk, hed', hp⟩ := key_of_decrypt hmd h
    rw [hed] at hed'
    cases hed'
    have hl := (mask_spec hmd K ed.length schemeHashPrefix).1
    have hpl : p.length = ed.length := by rw [hp, xorBytes_length, hl]; omega
    have hlen : (xorBytes ed (xorBytes p t)).length = t.length := by simp only [xorBytes_length]; omega
    rw [decrypt_of_key (K := K) (c1 := c1) (ed := xorBytes ed (xorBytes p t)) hmd ?_ (by rw [SMap.find_insert, if_pos rfl])]
    · rw [hlen, ← mask_take hmd K t.length ed.length (by omega), hp, xor_forge _ _ _ hl (by omega)]
    · rw [← hk]
      apply decryptKEM_congr
      intro n hn
      rw [SMap.find_insert, if_neg (by rintro rfl; exact not_belongs_data sch hn)]

/-- The code violates C131: attributes can be taken off a key-policy ciphertext. Every key whose policy is satisfied by the
attributes that are left decrypts to the same plaintext, so what the ciphertext says about its message can be falsified. -/
theorem C131_attributes_violated (env : Env G1 G2 GT) (hb : Bilinear q env.e) (hnd : env.ndebug = false)
    (hmd : ∀ x, (env.md x).length = 32)
    (c c1 : Ctx G1 G2 GT) (mpkID mskID keyID : Bytes) (pr : ParamRand q G1 G2) (kr er : Rand q)
    (hgen : generateParams env .kp c mpkID mskID pr = .ok (none, c1))
    (s : Bytes) (p : Policy) (hp : createPolicyTree env.mktime s = .ok (some p)) (al al' : AttrList)
    (hsub : ∀ a ∈ al'.attrs, a ∈ al.attrs)
    (hrows : (rowLabels env.md p).Nodup) (hattrs : NoClash env.md al.attrs) (hsat : Satisfies al'.attrs p)
    (ct : Ciphertext G1 G2 GT) (plaintext : Bytes) :
    ∃ mpk c2 dk, (c1.ks.getPublicKey mpkID).1 = some mpk ∧
      generateKey env .kp c1 (.policy p) keyID mpkID mskID kr = .ok (none, c2) ∧
      (c2.ks.getSecretKey keyID).1 = some dk ∧ (c2.ks.getPublicKey mpkID).1 = some mpk ∧ c2.ready = true ∧
      ∀ (cE cD : Ctx G1 G2 GT) (idE idD : Bytes), cE.ready = true → cD.ready = true →
        (cE.ks.getPublicKey idE).1 = some mpk → (cD.ks.getSecretKey idD).1 = some dk →
        ∃ ct' cE' cD', encrypt env .kp cE idE (.attrs al) plaintext er ct = .ok (.ok ct', cE') ∧
          decrypt q env .kp cD idD ⟨ct'.version, ct'.alg, ct'.uid, SMap.insert b!"attributes" (.attrs al') ct'.comps⟩ =
            .ok (none, plaintext, cD') := by
  obtain ⟨hr, mpk, msk, h1, h2, hpm⟩ := generateParams_ok hgen
  have hlen : symKeyBytes = 16 ∨ symKeyBytes = 32 := .inr rfl
  obtain ⟨d, hd, -⟩ := kp_altered hb hnd hpm hr hr hp al' kr hlen hrows hsat
  obtain ⟨c2, dk, hk, hr2, hs, rfl, hpk⟩ := kp_generateKey (keyID := keyID) h1 h2 hd
  refine ⟨mpk, c2, dk, h1, hk, hs, hpk, hr2.trans hr, ?_⟩
  intro cE cD idE idD hrE hrD hE hD
  obtain ⟨d', hd', hdec⟩ := kp_altered hb hnd hpm hr hrD hp al' kr hlen hrows hsat
  rw [hd] at hd'
  cases hd'
  obtain ⟨P, M, hPM, f1, f2, f3, f4, f5⟩ := kpParams_ok env pr
  have hpm0 : kpParams env pr = .ok (mpk.comps, msk.comps) := hpm
  rw [hpm0] at hPM
  simp only [Res.ok.injEq, Prod.mk.injEq] at hPM
  obtain ⟨rfl, rfl⟩ := hPM
  have henc : kpEncBody env cE mpk al symKeyBytes er ct =
      .ok (sharedKey env pr er.x symKeyBytes, { ct with alg := cE.alg, comps := kpCt env pr al er.x ct.comps }) := by
    simp only [kpEncBody, getBytes_of f4, getGT_of f3, getG2_of f2, usePairing_ok hrE, Res.ok_bind,
      deref_some, setComponent_attrs, setComponent_g2, kpEncLoop_eq, symKeyOf_ok env _ hlen, kpCt, sharedKey]
  obtain ⟨x, hx1, hx2, hx3⟩ := mask_xor hmd (sharedKey env pr er.x symKeyBytes) plaintext
  refine ⟨⟨ct.version, cE.alg, ct.uid, SMap.insert b!"_ED" (.bytes x) (kpCt env pr al er.x ct.comps)⟩,
    { cE with ks := (cE.ks.getPublicKey idE).2 }, { cD with ks := (cD.ks.getSecretKey idD).2 }, ?_, ?_⟩
  · unfold encrypt
    rw [(encryptKEM_ok hE).2 al henc]
    simp only [Res.ok_bind, hx1]
    rfl
  · have hkey := (hdec (SMap.insert b!"attributes" (.attrs al') (SMap.insert b!"_ED" (.bytes x) (kpCt env pr al er.x ct.comps)))
      (by rw [SMap.find_insert, if_pos rfl]) (er.x • pr.g2)
      (by
        rw [SMap.find_insert, if_neg (by decide), SMap.find_insert, if_neg (by decide)]; unfold kpCt
        rw [SMap.find_insert, if_neg (by decide), find_attrRow_other _ (by intro u; simp [elementLabel]),
          SMap.find_insert, if_pos rfl])
      (fun a => er.x • hashToG1 env pr.k a)
      (by
        intro a ha
        rw [SMap.find_insert, if_neg (by simp [elementLabel]), SMap.find_insert, if_neg (by simp [elementLabel])]; unfold kpCt
        rw [SMap.find_insert, if_neg (by simp [elementLabel])]
        exact find_attrRow hattrs _ (hsub a ha))).2 er.x rfl (fun _ _ => rfl)
    unfold decrypt
    rw [decryptKEM_ok hD]
    have hed : SMap.find b!"_ED" (SMap.insert b!"attributes" (.attrs al') (SMap.insert b!"_ED" (.bytes x) (kpCt env pr al er.x ct.comps))) =
        some (.bytes x) := by
      rw [SMap.find_insert, if_neg (by decide), SMap.find_insert, if_pos rfl]
    unfold sharedKey at hx3
    simp only [hkey, Scheme.caught_ok, Res.ok_bind, getBytes_of hed, notNull_some, hx3]

/-- How a plaintext comes out that was masked with the one and unmasked with the other key. -/
theorem other_mask {md : Bytes → Bytes} (hmd : ∀ x, (md x).length = 32) (K K' pt : Bytes) :
    ∃ x y, BS.xorAssign pt (hashFromBytes md K pt.length schemeHashPrefix) = .ok x ∧
      BS.xorAssign x (hashFromBytes md K' x.length schemeHashPrefix) = .ok y ∧ y.length = pt.length ∧
      (y = pt ↔ hashFromBytes md K' pt.length schemeHashPrefix = hashFromBytes md K pt.length schemeHashPrefix) := by
  have l1 := (mask_spec hmd K pt.length schemeHashPrefix).1
  have l2 := (mask_spec hmd K' pt.length schemeHashPrefix).1
  have hx : (xorBytes pt (hashFromBytes md K pt.length schemeHashPrefix)).length = pt.length := by rw [xorBytes_length]; omega
  refine ⟨_, _, xorAssign_mask hmd K pt, xorAssign_mask hmd K' _, by rw [xorBytes_length, hx, l2]; omega, ?_⟩
  rw [hx]
  generalize hashFromBytes md K pt.length schemeHashPrefix = m at *
  generalize hashFromBytes md K' pt.length schemeHashPrefix = m' at *
  have key : ∀ i (h : i < pt.length), (xorBytes (xorBytes pt m) m')[i]'(by simp only [xorBytes_length]; omega) = pt[i] ^^^ m[i] ^^^ m'[i] := by
    intro i h
    simp only [xorBytes, List.getElem_zipWith]
  constructor
  · intro h
    apply List.ext_getElem (by omega)
    intro i h1 h2
    have h3 := key i (by omega)
    simp only [h] at h3
    generalize pt[i] = a at h3
    generalize m[i] = b at h3 ⊢
    generalize m'[i] = d at h3 ⊢
    have h4 : a ^^^ (b ^^^ d) = a ^^^ 0 := by rw [← UInt8.xor_assoc, ← h3, UInt8.xor_zero]
    have h5 := congrArg (fun z => a ^^^ z) h4
    simp only [← UInt8.xor_assoc, UInt8.xor_self, UInt8.zero_xor] at h5
    have h6 := congrArg (fun z => b ^^^ z) h5
    simpa only [← UInt8.xor_assoc, UInt8.xor_self, UInt8.zero_xor, UInt8.xor_zero] using h6
  · intro h
    apply List.ext_getElem (by simp only [xorBytes_length]; omega)
    intro i h1 h2
    rw [key i h2]
    simp only [h, UInt8.xor_assoc, UInt8.xor_self, UInt8.xor_zero]

/-- The code violates C131: decryption with a key of another authority reports no error. For any two authorities, a key of the one
for attributes that satisfy the policy of a ciphertext of the other gives some plaintext of the same length; it is right only if
the mask of another session key happens to be the same. -/
theorem C131_cp_other_authority_violated (env : Env G1 G2 GT) (hnd : env.ndebug = false) (hmd : ∀ x, (env.md x).length = 32)
    (c c1 d d1 : Ctx G1 G2 GT) (mpkID mskID mpkID' mskID' keyID : Bytes) (pr pr' : ParamRand q G1 G2) (kr er : Rand q)
    (hgen : generateParams env .cp c mpkID mskID pr = .ok (none, c1)) (hgen' : generateParams env .cp d mpkID' mskID' pr' = .ok (none, d1))
    (s : Bytes) (p : Policy) (hp : createPolicyTree env.mktime s = .ok (some p)) (al : AttrList)
    (hrows : (rowLabels env.md p).Nodup) (hattrs : NoClash env.md al.attrs) (hsat : Satisfies al.attrs p)
    (ct : Ciphertext G1 G2 GT) (plaintext : Bytes) :
    ∃ mpk d2 dk, (c1.ks.getPublicKey mpkID).1 = some mpk ∧
      generateKey env .cp d1 (.attrs al) keyID mpkID' mskID' kr = .ok (none, d2) ∧ (d2.ks.getSecretKey keyID).1 = some dk ∧
      ∀ (cE cD : Ctx G1 G2 GT) (idE idD : Bytes), cE.ready = true → cD.ready = true →
        (cE.ks.getPublicKey idE).1 = some mpk → (cD.ks.getSecretKey idD).1 = some dk →
        ∃ ct' cE' cD' out K K', encrypt env .cp cE idE (.policy p) plaintext er ct = .ok (.ok ct', cE') ∧
          decrypt q env .cp cD idD ct' = .ok (none, out, cD') ∧ out.length = plaintext.length ∧
          K = sharedKey env pr er.x 32 ∧ decryptKEM q env .cp cD idD ct' 32 = .ok (.ok K', cD') ∧
          (out = plaintext ↔
            hashFromBytes env.md K' plaintext.length schemeHashPrefix = hashFromBytes env.md K plaintext.length schemeHashPrefix) := by
  obtain ⟨hr, mpk, msk, h1, h2, hpm⟩ := generateParams_ok hgen
  obtain ⟨hr', mpk', msk', h1', h2', hpm'⟩ := generateParams_ok hgen'
  have hlen : symKeyBytes = 16 ∨ symKeyBytes = 32 := .inr rfl
  obtain ⟨d0, -, hd, -, -⟩ := cp_foreign hnd hpm hpm' hr' hr' hr' hp al kr.x er ct hlen hrows hattrs hsat
  obtain ⟨d2, dk, hk, hr2, hs, rfl, hpk⟩ := cp_generateKey (keyID := keyID) h1' h2' hd
  refine ⟨mpk, d2, dk, h1, hk, hs, ?_⟩
  intro cE cD idE idD hrE hrD hE hD
  obtain ⟨d', ct', hd', henc, hdec⟩ := cp_foreign hnd hpm hpm' hr' hrE hrD hp al kr.x er ct hlen hrows hattrs hsat
  rw [hd] at hd'
  cases hd'
  obtain ⟨K', hK'⟩ := hdec ct'.comps (fun _ _ => rfl)
  obtain ⟨x, y, hx, hy, hyl, hiff⟩ := other_mask hmd (sharedKey env pr er.x symKeyBytes) K' plaintext
  have hsame : SameKem (SMap.insert b!"_ED" (.bytes x) ct'.comps) ct'.comps := by
    intro n hn
    rw [SMap.find_insert, if_neg hn]
  have hed : SMap.find b!"_ED" (SMap.insert b!"_ED" (.bytes x) ct'.comps) = some (.bytes x) := by
    rw [SMap.find_insert, if_pos rfl]
  have hkem : decryptKEM q env .cp cD idD ⟨ct'.version, ct'.alg, ct'.uid, SMap.insert b!"_ED" (.bytes x) ct'.comps⟩ 32 =
      .ok (.ok K', { cD with ks := (cD.ks.getSecretKey idD).2 }) := by
    rw [decryptKEM_ok hD]
    have := cpDecBody_congr (q := q) env cD dk.comps (SMap.insert b!"_ED" (.bytes x) ct'.comps) ct'.comps symKeyBytes
      (fun n hn => hsame n (by rintro rfl; exact not_belongs_data .cp hn))
    rw [hK'] at this
    have this' : cpDecBody q env cD dk.comps (SMap.insert b!"_ED" (.bytes x) ct'.comps) 32 = .ok K' := this
    simp only [this', Scheme.caught_ok, Res.ok_bind]
  refine ⟨⟨ct'.version, ct'.alg, ct'.uid, SMap.insert b!"_ED" (.bytes x) ct'.comps⟩,
    { cE with ks := (cE.ks.getPublicKey idE).2 }, { cD with ks := (cD.ks.getSecretKey idD).2 }, y, _, K', ?_, ?_, hyl, rfl, hkem, hiff⟩
  · unfold encrypt
    rw [(encryptKEM_ok hE).1 p henc]
    simp only [Res.ok_bind]
    unfold sharedKey at hx
    rw [hx]
    rfl
  · have := decrypt_of_key hmd (K := K') (ed := x) hkem hed
    rw [this]
    have hy' := xorAssign_mask hmd K' x
    rw [hy] at hy'
    cases hy'
    rfl

/-- Key-policy: the same. -/
theorem C131_kp_other_authority_violated (env : Env G1 G2 GT) (hb : Bilinear q env.e) (hnd : env.ndebug = false) (hmd : ∀ x, (env.md x).length = 32)
    (c c1 d d1 : Ctx G1 G2 GT) (mpkID mskID mpkID' mskID' keyID : Bytes) (pr pr' : ParamRand q G1 G2) (kr er : Rand q)
    (hgen : generateParams env .kp c mpkID mskID pr = .ok (none, c1)) (hgen' : generateParams env .kp d mpkID' mskID' pr' = .ok (none, d1))
    (s : Bytes) (p : Policy) (hp : createPolicyTree env.mktime s = .ok (some p)) (al : AttrList)
    (hrows : (rowLabels env.md p).Nodup) (hattrs : NoClash env.md al.attrs) (hsat : Satisfies al.attrs p)
    (ct : Ciphertext G1 G2 GT) (plaintext : Bytes) :
    ∃ mpk d2 dk, (c1.ks.getPublicKey mpkID).1 = some mpk ∧
      generateKey env .kp d1 (.policy p) keyID mpkID' mskID' kr = .ok (none, d2) ∧ (d2.ks.getSecretKey keyID).1 = some dk ∧
      ∀ (cE cD : Ctx G1 G2 GT) (idE idD : Bytes), cE.ready = true → cD.ready = true →
        (cE.ks.getPublicKey idE).1 = some mpk → (cD.ks.getSecretKey idD).1 = some dk →
        ∃ ct' cE' cD' out K K', encrypt env .kp cE idE (.attrs al) plaintext er ct = .ok (.ok ct', cE') ∧
          decrypt q env .kp cD idD ct' = .ok (none, out, cD') ∧ out.length = plaintext.length ∧
          K = sharedKey env pr er.x 32 ∧ decryptKEM q env .kp cD idD ct' 32 = .ok (.ok K', cD') ∧
          (out = plaintext ↔
            hashFromBytes env.md K' plaintext.length schemeHashPrefix = hashFromBytes env.md K plaintext.length schemeHashPrefix) := by
  obtain ⟨hr, mpk, msk, h1, h2, hpm⟩ := generateParams_ok hgen
  obtain ⟨hr', mpk', msk', h1', h2', hpm'⟩ := generateParams_ok hgen'
  have hlen : symKeyBytes = 16 ∨ symKeyBytes = 32 := .inr rfl
  obtain ⟨d0, hd, -⟩ := kp_altered hb hnd hpm' hr' hr' hp al kr hlen hrows hsat
  obtain ⟨d2, dk, hk, hr2, hs, rfl, hpk⟩ := kp_generateKey (keyID := keyID) h1' h2' hd
  refine ⟨mpk, d2, dk, h1, hk, hs, ?_⟩
  intro cE cD idE idD hrE hrD hE hD
  obtain ⟨d', hd', hdec⟩ := kp_altered hb hnd hpm' hr' hrD hp al kr hlen hrows hsat
  rw [hd] at hd'
  cases hd'
  obtain ⟨P, M, hPM, f1, f2, f3, f4, f5⟩ := kpParams_ok env pr
  have hpm0 : kpParams env pr = .ok (mpk.comps, msk.comps) := hpm
  rw [hpm0] at hPM
  simp only [Res.ok.injEq, Prod.mk.injEq] at hPM
  obtain ⟨rfl, rfl⟩ := hPM
  have henc : kpEncBody env cE mpk al symKeyBytes er ct =
      .ok (sharedKey env pr er.x symKeyBytes, { ct with alg := cE.alg, comps := kpCt env pr al er.x ct.comps }) := by
    simp only [kpEncBody, getBytes_of f4, getGT_of f3, getG2_of f2, usePairing_ok hrE, Res.ok_bind,
      deref_some, setComponent_attrs, setComponent_g2, kpEncLoop_eq, symKeyOf_ok env _ hlen, kpCt, sharedKey]
  have g1 : SMap.find b!"attributes" (kpCt env pr al er.x ct.comps) = some (.attrs al) := by
    unfold kpCt; rw [SMap.find_insert, if_pos rfl]
  have g2 : SMap.find b!"Cpr2" (kpCt env pr al er.x ct.comps) = some (.g2 (er.x • pr.g2)) := by
    unfold kpCt
    rw [SMap.find_insert, if_neg (by decide), find_attrRow_other _ (by intro u; simp [elementLabel]), SMap.find_insert, if_pos rfl]
  have g3 : ∀ a ∈ al.attrs, SMap.find (elementLabel b!"C" (hashKey env.md a)) (kpCt env pr al er.x ct.comps) =
      some (.g1 (er.x • hashToG1 env pr.k a)) := by
    intro a ha
    unfold kpCt
    rw [SMap.find_insert, if_neg (by simp [elementLabel])]
    exact find_attrRow hattrs _ ha
  obtain ⟨K', hK'⟩ := (hdec (kpCt env pr al er.x ct.comps) g1 _ g2 _ g3).1
  obtain ⟨x, y, hx, hy, hyl, hiff⟩ := other_mask hmd (sharedKey env pr er.x symKeyBytes) K' plaintext
  have hsame : SameKem (SMap.insert b!"_ED" (.bytes x) (kpCt env pr al er.x ct.comps)) (kpCt env pr al er.x ct.comps) := by
    intro n hn
    rw [SMap.find_insert, if_neg hn]
  have hed : SMap.find b!"_ED" (SMap.insert b!"_ED" (.bytes x) (kpCt env pr al er.x ct.comps)) = some (.bytes x) := by
    rw [SMap.find_insert, if_pos rfl]
  have hkem : decryptKEM q env .kp cD idD ⟨ct.version, cE.alg, ct.uid, SMap.insert b!"_ED" (.bytes x) (kpCt env pr al er.x ct.comps)⟩ 32 =
      .ok (.ok K', { cD with ks := (cD.ks.getSecretKey idD).2 }) := by
    rw [decryptKEM_ok hD]
    have := kpDecBody_congr (q := q) env cD dk.comps (SMap.insert b!"_ED" (.bytes x) (kpCt env pr al er.x ct.comps)) (kpCt env pr al er.x ct.comps) symKeyBytes
      (fun n hn => hsame n (by rintro rfl; exact not_belongs_data .kp hn))
    rw [hK'] at this
    have this' : kpDecBody q env cD dk.comps (SMap.insert b!"_ED" (.bytes x) (kpCt env pr al er.x ct.comps)) 32 = .ok K' := this
    simp only [this', Scheme.caught_ok, Res.ok_bind]
  refine ⟨⟨ct.version, cE.alg, ct.uid, SMap.insert b!"_ED" (.bytes x) (kpCt env pr al er.x ct.comps)⟩,
    { cE with ks := (cE.ks.getPublicKey idE).2 }, { cD with ks := (cD.ks.getSecretKey idD).2 }, y, _, K', ?_, ?_, hyl, rfl, hkem, hiff⟩
  · unfold encrypt
    rw [(encryptKEM_ok hE).2 al henc]
    simp only [Res.ok_bind, hx]
    rfl
  · have := decrypt_of_key hmd (K := K') (ed := x) hkem hed
    rw [this]
    have hy' := xorAssign_mask hmd K' x
    rw [hy] at hy'
    cases hy'
    rfl

/-- The hypotheses of the theorems above are met by the policy `a and (b or c)`, the attributes `a` and `c` (taken from `x`, `a`, `c`
for `C131_attributes_violated`), any two authorities, and a ciphertext of `1 2 3` that becomes one of `9 9`. -/
example (S : StdSort) (sch : Scheme) (pr pr' : ParamRand 5 (ZMod 5) (ZMod 5)) (kr er : Rand 5) :
    (∀ x, ((Toy.env Toy.mk0 S).md x).length = 32) ∧ (Toy.env Toy.mk0 S).ndebug = false ∧ Bilinear 5 (Toy.env Toy.mk0 S).e ∧
    (∃ c1 d1, generateParams (Toy.env Toy.mk0 S) sch (⟨101, false, {}⟩ : Ctx (ZMod 5) (ZMod 5) (ZMod 5)) b!"mpk" b!"msk" pr = .ok (none, c1) ∧
      generateParams (Toy.env Toy.mk0 S) sch (⟨101, false, {}⟩ : Ctx (ZMod 5) (ZMod 5) (ZMod 5)) b!"mpk" b!"msk" pr' = .ok (none, d1)) ∧
    (∃ (p : Policy) (al al' : AttrList), createPolicyTree Toy.mk0 b!"a and (b or c)" = .ok (some p) ∧ (rowLabels (Toy.env Toy.mk0 S).md p).Nodup ∧
      NoClash (Toy.env Toy.mk0 S).md al.attrs ∧ al'.attrs = [b!"a", b!"c"] ∧ al.attrs = [b!"x", b!"a", b!"c"] ∧
      Satisfies al.attrs p ∧ Satisfies al'.attrs p) ∧
    ∃ (ct : Ciphertext (ZMod 5) (ZMod 5) (ZMod 5)) (c c1 : Ctx (ZMod 5) (ZMod 5) (ZMod 5)) (ed : Bytes), SMap.find b!"_ED" ct.comps = some (.bytes ed) ∧ (b!"99").length ≤ (b!"123").length ∧
      decrypt 5 (Toy.env Toy.mk0 S) .cp c b!"key" ct = .ok (none, b!"123", c1) := by
  obtain ⟨c1, hg⟩ := Toy.gen Toy.mk0 S sch pr
  obtain ⟨d1, hg'⟩ := Toy.gen Toy.mk0 S sch pr'
  obtain ⟨p, al, h1, h2, h3, h4⟩ := texts (Toy.text3 Toy.mk0) (Toy.list3 Toy.mk0) Toy.pct3
  have hn : NoClash (Toy.env Toy.mk0 S).md (rowNames p) := by
    rw [Toy.names3 h1]; exact Toy.short_noClash (by decide)
  have hal := Toy.attrs3 Toy.mk0 h2
  have hsat := h4.mpr (Toy.true3 Toy.mk0)
  have ha : NoClash (Toy.env Toy.mk0 S).md al.attrs := by
    rw [hal]; exact Toy.short_noClash (by decide)
  refine ⟨Toy.digest Toy.mk0 S, rfl, Toy.bilinear Toy.mk0 S, ⟨c1, d1, hg, hg'⟩,
    ⟨p, { al with attrs := b!"x" :: al.attrs }, al, h1, rowLabels_nodup h3 hn, ?_, hal, by rw [hal], ?_, hsat⟩, ?_⟩
  · show NoClash _ (b!"x" :: al.attrs)
    rw [hal]; exact Toy.short_noClash (by decide)
  · obtain ⟨t, ht, hs⟩ := hsat
    exact ⟨t, ht, sat_mono (fun a h => List.mem_cons_of_mem _ h) t hs⟩
  · obtain ⟨c1', hgc⟩ := Toy.gen Toy.mk0 S .cp pr
    obtain ⟨mpk, c2, dk, -, -, hd, hm, hr, hrt⟩ := C46_cp_round_trip (Toy.env Toy.mk0 S) (Toy.bilinear Toy.mk0 S) rfl (Toy.digest Toy.mk0 S)
      _ c1' b!"mpk" b!"msk" b!"key" pr kr er hgc _ p h1 al (rowLabels_nodup h3 hn) ha hsat {} b!"123"
    obtain ⟨ct, cE, cD, he, hdec⟩ := hrt c2 c2 _ _ hr hr hm hd
    obtain ⟨K, ed, -, hed, -⟩ := key_of_decrypt (Toy.digest Toy.mk0 S) hdec
    exact ⟨ct, c2, cD, ed, hed, by decide, hdec⟩

end Authentic
end Abe
