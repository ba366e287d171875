import Verif.Props.Search
import Verif.Props.WireSize
/-!
# Searching a key and decrypting with it, without assumptions about sizes on the wire (C102)
-/
set_option linter.unusedSimpArgs false
set_option linter.unusedSectionVars false
set_option autoImplicit false
namespace Abe
namespace Cpa
open Scheme
variable {q : Nat} [Fact q.Prime] {G1 G2 GT : Type} [AddCommGroup G1] [AddCommGroup G2] [AddCommGroup GT]
  [Module (ZMod q) G1] [Module (ZMod q) G2] [Module (ZMod q) GT]

/-- The bytes of a user key that the authority made for `input` in a context that holds the master keys of `c1`, under an id that names
no public key, and exported. As `Issued`, with nothing about the size of the key. -/
def Given (env : Env G1 G2 GT) (cd : Codec G1 G2 GT) (sch : Scheme) (c1 : Ctx G1 G2 GT) (mpkID mskID : Bytes) (input : FInput)
    (blob : Bytes) : Prop :=
  ∃ (cA c2 c3 : Ctx G1 G2 GT) (keyID : Bytes) (kr : Rand q), cA.ready = true ∧ cA.alg = c1.alg ∧
    (cA.ks.getPublicKey mpkID).1 = (c1.ks.getPublicKey mpkID).1 ∧ (cA.ks.getSecretKey mskID).1 = (c1.ks.getSecretKey mskID).1 ∧
    (cA.ks.getPublicKey keyID).1 = none ∧ kr.uid.length = uidLen ∧ keyID.length < 2 ^ 31 ∧
    generateKey env sch cA input keyID mpkID mskID kr = .ok (none, c2) ∧ exportKey cd c2 keyID = .ok (.ok blob, c3)

/-- The bytes of a key for a text of attributes `a` of at most 64 KiB. -/
def CpGiven (env : Env G1 G2 GT) (cd : Codec G1 G2 GT) (c1 : Ctx G1 G2 GT) (mpkID mskID : Bytes) (a : AExpr) (blob : Bytes) : Prop :=
  ∃ l al, ListText env.mktime l a ∧ createAttributeList env.mktime l = .ok (some al) ∧ NoClash env.md al.attrs ∧
    l.length ≤ 65536 ∧ Given (q := q) env cd .cp c1 mpkID mskID (.attrs al) blob

/-- The bytes of a key for a policy text `e` of at most 64 KiB. -/
def KpGiven (env : Env G1 G2 GT) (cd : Codec G1 G2 GT) (c1 : Ctx G1 G2 GT) (mpkID mskID : Bytes) (e : Expr) (blob : Bytes) : Prop :=
  ∃ s p, PolicyText env.mktime s e ∧ e.Unnumbered ∧ createPolicyTree env.mktime s = .ok (some p) ∧ NoClash env.md (rowNames p) ∧
    s.length ≤ 65536 ∧ Given (q := q) env cd .kp c1 mpkID mskID (.policy p) blob

theorem cpIssued_of {env : Env G1 G2 GT} {cd : Codec G1 G2 GT} {n : Nat} (hn : ElementBytes cd n) (hn' : n ≤ 1024) (hnd : env.ndebug = false)
    {c1 : Ctx G1 G2 GT} {mpkID mskID : Bytes} {a : AExpr} {blob : Bytes} (h : CpGiven (q := q) env cd c1 mpkID mskID a blob) :
    CpIssued (q := q) env cd c1 mpkID mskID a blob := by
  obtain ⟨l, al, h1, h2, h3, h4, cA, c2, c3, keyID, kr, g1, g2, g3, g4, g5, g6, g7, g8, g9⟩ := h
  have hz := list_size h2
  obtain ⟨dk, d1, -, -, d2, -⟩ := key_comps (cd := cd) hn hnd g8
  have d3 := d2 l al rfl h2
  have r := room h4 hn' rfl
  exact ⟨l, al, h1, h2, h3, by omega, cA, c2, c3, keyID, kr, dk, g1, g2, g3, g4, g5, g6, g7, g8, d1, fits_of (by omega), g9⟩

theorem kpIssued_of {env : Env G1 G2 GT} {cd : Codec G1 G2 GT} {n : Nat} (hn : ElementBytes cd n) (hn' : n ≤ 1024) (hnd : env.ndebug = false)
    {c1 : Ctx G1 G2 GT} {mpkID mskID : Bytes} {e : Expr} {blob : Bytes} (h : KpGiven (q := q) env cd c1 mpkID mskID e blob) :
    KpIssued (q := q) env cd c1 mpkID mskID e blob := by
  obtain ⟨s, p, h1, h2, h3, h4, h5, cA, c2, c3, keyID, kr, g1, g2, g3, g4, g5, g6, g7, g8, g9⟩ := h
  obtain ⟨dk, d1, -, -, -, d2⟩ := key_comps (cd := cd) hn hnd g8
  have d3 := d2 s p rfl h3
  have r := room h5 hn' rfl
  exact ⟨s, p, h1, h2, h3, h4, by omega, cA, c2, c3, keyID, kr, dk, g1, g2, g3, g4, g5, g6, g7, g8, d1, fits_of (by omega), g9⟩

/-- Searching and decrypting, ciphertext-policy, for texts of up to 64 KiB: as `C102_cp`, with no assumption about the sizes of
keys and ciphertexts on the wire. The limits that the statement names: texts of 64 KiB, attribute names that do not collide after hashing
(`NoClash`), no key stored under the empty id (C65). -/
theorem C102_cp_texts (env : Env G1 G2 GT) (hb : Bilinear q env.e) (hnd : env.ndebug = false)
    (hmd : ∀ x, (env.md x).length = 32) (cd : Codec G1 G2 GT) (hc : CodecOk cd) (n : Nat) (hn : ElementBytes cd n) (hn' : n ≤ 1024)
    (c c1 : Ctx G1 G2 GT) (hal : c.alg = 101) (mpkID mskID : Bytes) (pr : ParamRand q G1 G2)
    (hgen : generateParams env .cp c mpkID mskID pr = .ok (none, c1))
    (s : Bytes) (e : Expr) (hs : PolicyText env.mktime s e) (hpct : e.Unnumbered) (hs16 : s.length ≤ 65536) (p : Policy)
    (hp : createPolicyTree env.mktime s = .ok (some p)) (hrn : NoClash env.md (rowNames p))
    (cE cE' : Ctx G1 G2 GT) (idE : Bytes) (hEr : cE.ready = true) (hEa : cE.alg = 101)
    (hEk : (cE.ks.getPublicKey idE).1 = (c1.ks.getPublicKey mpkID).1)
    (ct0 ct : Ciphertext G1 G2 GT) (hu : ct0.uid.length = uidLen) (hv : ct0.version ≤ libraryVersion) (h0 : ct0.comps = [])
    (plaintext : Bytes) (hpt : plaintext.length < 2 ^ 31) (er : Rand q)
    (henc : encrypt env .cp cE idE (.policy p) plaintext er ct0 = .ok (.ok ct, cE'))
    (kenv : KmEnv G1 G2 GT) (hk1 : kenv.mktime = env.mktime) (hk2 : kenv.codec = cd)
    (log : KeyMgr.Log) (km : KeyMgr G1 G2 GT) (hreach : KeyMgr.Reach kenv log km) (qu : Query)
    (hiss : ∀ id blob, log.latest id = some (qu.userId, blob) → ∃ a, CpGiven (q := q) env cd c1 mpkID mskID a blob) :
    ∃ out ct', ct.exportBytes cd = .ok out ∧ Ciphertext.load env.mktime cd {} out = .ok ct' ∧
      ∃ f id km' f', ct'.functionInput env.mktime = .ok f ∧ KeyMgr.search kenv km qu f = .ok (id, km', f') ∧
      (id ≠ [] → ∃ txt blob, KeyMgr.getKey km' qu.userId id = .ok (txt, blob) ∧
        ∀ (cD : Ctx G1 G2 GT) (idD rnd : Bytes), cD.alg = 101 → ∃ cD1 cD2,
          loadUserSecretParams env.mktime cd cD idD blob rnd = .ok (none, cD1) ∧
          decrypt q env .cp cD1 idD ct' = .ok (none, plaintext, cD2)) ∧
      (∀ j blob a, log.latest j = some (qu.userId, blob) → CpGiven (q := q) env cd c1 mpkID mskID a blob →
        e.trueFor env.mktime a → qu.userId ≠ [] → log.latest [] = none → id ≠ []) := by
  have r := room hs16 hn' rfl
  have y1 := (encrypt_bytes (cd := cd) hn hnd henc).1 s p rfl hp
  have y2 : contBytes cd ct0.comps = 0 := by rw [h0]; rfl
  obtain ⟨out, ct', a1, a2, f, id, km', f', a3, a4, a5, a6⟩ := C102_cp env hb hnd hmd cd hc c c1 hal mpkID mskID pr hgen s e hs hpct
    (by omega) p hp hrn cE cE' idE hEr hEa hEk ct0 ct hu hv h0 plaintext hpt er henc (fits_of (by omega)) kenv hk1 hk2 log km hreach qu
    (fun id blob h => by obtain ⟨a, ha⟩ := hiss id blob h; exact ⟨a, cpIssued_of hn hn' hnd ha⟩)
  exact ⟨out, ct', a1, a2, f, id, km', f', a3, a4, a5, fun j blob a h1 h2 => a6 j blob a h1 (cpIssued_of hn hn' hnd h2)⟩

/-- Searching and decrypting, key-policy, for texts of up to 64 KiB. Missing as in `C102_cp_texts`. -/
theorem C102_kp_texts (env : Env G1 G2 GT) (hb : Bilinear q env.e) (hnd : env.ndebug = false)
    (hmd : ∀ x, (env.md x).length = 32) (cd : Codec G1 G2 GT) (hc : CodecOk cd) (n : Nat) (hn : ElementBytes cd n) (hn' : n ≤ 1024)
    (c c1 : Ctx G1 G2 GT) (hal : c.alg = 102) (mpkID mskID : Bytes) (pr : ParamRand q G1 G2)
    (hgen : generateParams env .kp c mpkID mskID pr = .ok (none, c1))
    (l : Bytes) (a : AExpr) (hl : ListText env.mktime l a) (hl16 : l.length ≤ 65536) (al : AttrList)
    (hp : createAttributeList env.mktime l = .ok (some al)) (hrn : NoClash env.md al.attrs)
    (cE cE' : Ctx G1 G2 GT) (idE : Bytes) (hEr : cE.ready = true) (hEa : cE.alg = 102)
    (hEk : (cE.ks.getPublicKey idE).1 = (c1.ks.getPublicKey mpkID).1)
    (ct0 ct : Ciphertext G1 G2 GT) (hu : ct0.uid.length = uidLen) (hv : ct0.version ≤ libraryVersion) (h0 : ct0.comps = [])
    (plaintext : Bytes) (hpt : plaintext.length < 2 ^ 31) (er : Rand q)
    (henc : encrypt env .kp cE idE (.attrs al) plaintext er ct0 = .ok (.ok ct, cE'))
    (kenv : KmEnv G1 G2 GT) (hk1 : kenv.mktime = env.mktime) (hk2 : kenv.codec = cd)
    (log : KeyMgr.Log) (km : KeyMgr G1 G2 GT) (hreach : KeyMgr.Reach kenv log km) (qu : Query)
    (hiss : ∀ id blob, log.latest id = some (qu.userId, blob) → ∃ e, KpGiven (q := q) env cd c1 mpkID mskID e blob) :
    ∃ out ct', ct.exportBytes cd = .ok out ∧ Ciphertext.load env.mktime cd {} out = .ok ct' ∧
      ∃ f id km' f', ct'.functionInput env.mktime = .ok f ∧ KeyMgr.search kenv km qu f = .ok (id, km', f') ∧
      (id ≠ [] → ∃ txt blob, KeyMgr.getKey km' qu.userId id = .ok (txt, blob) ∧
        ∀ (cD : Ctx G1 G2 GT) (idD rnd : Bytes), cD.alg = 102 → ∃ cD1 cD2,
          loadUserSecretParams env.mktime cd cD idD blob rnd = .ok (none, cD1) ∧
          decrypt q env .kp cD1 idD ct' = .ok (none, plaintext, cD2)) ∧
      (∀ j blob e, log.latest j = some (qu.userId, blob) → KpGiven (q := q) env cd c1 mpkID mskID e blob →
        e.trueFor env.mktime a → qu.userId ≠ [] → log.latest [] = none → id ≠ []) := by
  have r := room hl16 hn' rfl
  have hz := list_size hp
  have y1 := (encrypt_bytes (cd := cd) hn hnd henc).2 l al rfl hp
  have y2 : contBytes cd ct0.comps = 0 := by rw [h0]; rfl
  obtain ⟨out, ct', a1, a2, f, id, km', f', a3, a4, a5, a6⟩ := C102_kp env hb hnd hmd cd hc c c1 hal mpkID mskID pr hgen l a hl al hp
    (by omega) hrn cE cE' idE hEr hEa hEk ct0 ct hu hv h0 plaintext hpt er henc (fits_of (by omega)) kenv hk1 hk2 log km hreach qu
    (fun id blob h => by obtain ⟨e, he⟩ := hiss id blob h; exact ⟨e, kpIssued_of hn hn' hnd he⟩)
  exact ⟨out, ct', a1, a2, f, id, km', f', a3, a4, a5, fun j blob e h1 h2 => a6 j blob e h1 (kpIssued_of hn hn' hnd h2)⟩

/-- The hypotheses of the two theorems above are met: the session of `SearchEx` with codec elements of one byte. -/
example : ∃ c1 p ct cE' blob km, generateParams WireEx.env .cp WireEx.ctx b!"mpk" b!"msk" WireEx.pr = .ok (none, c1) ∧
    createPolicyTree Toy.mk0 b!"a and (b or c)" = .ok (some p) ∧ NoClash WireEx.env.md (rowNames p) ∧ c1.ready = true ∧ c1.alg = 101 ∧
    encrypt WireEx.env .cp c1 b!"mpk" (.policy p) b!"hello" WireEx.rnd { uid := WireEx.u } = .ok (.ok ct, cE') ∧
    KeyMgr.Reach SearchEx.kenv [(b!"k1", some (b!"alice", blob))] km ∧ ElementBytes WireEx.codec 1 ∧
    ∃ a, CpGiven (q := 5) WireEx.env WireEx.codec c1 b!"mpk" b!"msk" a blob := by
  have h := SearchEx.session_ok
  unfold SearchEx.session at h
  split at h
  · rename_i c1 al p h1 h2 h3
    split at h
    · rename_i c2 h4
      split at h
      · rename_i dk blob cx ct cy h5 h6 h7
        simp only [Bool.and_eq_true, decide_eq_true_eq, Option.isNone_iff_eq_none] at h
        obtain ⟨⟨⟨⟨⟨⟨f1, f2⟩, f3⟩, f4⟩, f5⟩, f6⟩, f7⟩ := h
        refine ⟨c1, p, ct, cy, blob, _, h1, h3, ?_, f5, f6, h7,
          .stored _ _ _ 100 false [] .new (KeyMgr.Ex.fst_true f7), ?_, _,
          ⟨_, al, Toy.list3 Toy.mk0, h2, ?_, by decide, ?_⟩⟩
        · rw [Toy.names3 h3]; exact Toy.short_noClash (by decide)
        · exact ⟨fun _ => Nat.le_refl _, fun _ => Nat.le_refl _, fun _ => Nat.le_refl _, fun v hv => by
            have : v ≤ 5 := hv
            interval_cases v <;> simp [natBE]⟩
        · rw [Toy.attrs3 Toy.mk0 h2]; exact Toy.short_noClash (by decide)
        · exact ⟨c1, c2, cx, b!"dk", WireEx.rnd, f5, rfl, rfl, rfl, f3, rfl, by decide, h4, h6⟩
      · cases h
    · cases h
  · cases h

end Cpa
end Abe
