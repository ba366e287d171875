import Verif.Spec.Authentic
import Verif.Props.KeyLength
/-!
# What decryption reads, and decryption with keys of another authority
-/
set_option linter.unusedSimpArgs false
set_option linter.unusedSectionVars false
set_option autoImplicit false
namespace Abe
namespace Authentic
open Scheme
variable {q : ℕ} [Fact q.Prime]
variable {G1 G2 GT : Type} [AddCommGroup G1] [AddCommGroup G2] [AddCommGroup GT]
variable [Module (ZMod q) G1] [Module (ZMod q) G2] [Module (ZMod q) GT]

theorem getComponent_congr {c d : Container G1 G2 GT} {n : Bytes} (h : SMap.find n c = SMap.find n d) :
    (Container.getComponent c n).1 = (Container.getComponent d n).1 := by
  unfold Container.getComponent
  rw [h]
  split <;> rfl

theorem getG1_congr {c d : Container G1 G2 GT} {n : Bytes} (h : SMap.find n c = SMap.find n d) : getG1 c n = getG1 d n := by
  unfold getG1; rw [getComponent_congr h]
theorem getG2_congr {c d : Container G1 G2 GT} {n : Bytes} (h : SMap.find n c = SMap.find n d) : getG2 c n = getG2 d n := by
  unfold getG2; rw [getComponent_congr h]
theorem getBytes_congr {c d : Container G1 G2 GT} {n : Bytes} (h : SMap.find n c = SMap.find n d) : getBytes c n = getBytes d n := by
  unfold getBytes; rw [getComponent_congr h]

theorem cpDecLoop_congr (env : Env G1 G2 GT) (key c d : Container G1 G2 GT)
    (h : ∀ n, Belongs .cp n → SMap.find n c = SMap.find n d) : ∀ (rows : List (Bytes × (Bytes × ZMod q))) (prod1 : G1)
    (l : List (G1 × G2)), cpDecLoop env key c rows prod1 l = cpDecLoop env key d rows prod1 l
  | [], _, _ => rfl
  | row :: rows, prod1, l => by
    simp only [cpDecLoop]
    have h1 : SMap.find (elementLabel b!"C" (hashKey env.md row.1)) c = SMap.find (elementLabel b!"C" (hashKey env.md row.1)) d :=
      h _ (.inr (.inr (.inl ⟨_, rfl⟩)))
    have h2 : SMap.find (elementLabel b!"D" (hashKey env.md row.1)) c = SMap.find (elementLabel b!"D" (hashKey env.md row.1)) d :=
      h _ (.inr (.inr (.inr ⟨_, rfl⟩)))
    rw [getG1_congr h1, getG2_congr h2]
    simp only [cpDecLoop_congr env key c d h rows]

theorem kpDecLoop_congr (env : Env G1 G2 GT) (key c d : Container G1 G2 GT)
    (h : ∀ n, Belongs .kp n → SMap.find n c = SMap.find n d) : ∀ (rows : List (Bytes × (Bytes × ZMod q))) (prod1 : G1)
    (l : List (G1 × G2)), kpDecLoop env key c rows prod1 l = kpDecLoop env key d rows prod1 l
  | [], _, _ => rfl
  | row :: rows, prod1, l => by
    simp only [kpDecLoop]
    have h1 : SMap.find (elementLabel b!"C" (hashKey env.md row.2.1)) c = SMap.find (elementLabel b!"C" (hashKey env.md row.2.1)) d :=
      h _ (.inr (.inr ⟨_, rfl⟩))
    rw [getG1_congr h1]
    simp only [kpDecLoop_congr env key c d h rows]

theorem cpDecBody_congr (env : Env G1 G2 GT) (x : Ctx G1 G2 GT) (key c d : Container G1 G2 GT) (len : Nat)
    (h : ∀ n, Belongs .cp n → SMap.find n c = SMap.find n d) : cpDecBody q env x key c len = cpDecBody q env x key d len := by
  unfold cpDecBody
  rw [getBytes_congr (h _ (.inl rfl)), getG1_congr (h _ (.inr (.inl rfl)))]
  simp only [cpDecLoop_congr env key c d h]

theorem kpDecBody_congr (env : Env G1 G2 GT) (x : Ctx G1 G2 GT) (key c d : Container G1 G2 GT) (len : Nat)
    (h : ∀ n, Belongs .kp n → SMap.find n c = SMap.find n d) : kpDecBody q env x key c len = kpDecBody q env x key d len := by
  unfold kpDecBody
  rw [getComponent_congr (h _ (.inl rfl)), getG2_congr (h _ (.inr (.inl rfl)))]
  simp only [kpDecLoop_congr env key c d h]

theorem decryptKEM_congr (env : Env G1 G2 GT) (sch : Scheme) (x : Ctx G1 G2 GT) (keyID : Bytes) (ct ct' : Ciphertext G1 G2 GT) (len : Nat)
    (h : ∀ n, Belongs sch n → SMap.find n ct.comps = SMap.find n ct'.comps) :
    decryptKEM q env sch x keyID ct len = decryptKEM q env sch x keyID ct' len := by
  unfold decryptKEM
  cases sch
  · simp only [fun key => cpDecBody_congr (q := q) env x key ct.comps ct'.comps len h]
  · simp only [fun key => kpDecBody_congr (q := q) env x key ct.comps ct'.comps len h]

theorem not_belongs_data (sch : Scheme) : ¬ Belongs sch b!"_ED" := by
  cases sch <;> simp [Belongs]

/-! ### Masks -/

theorem xorBytes_length (a b : Bytes) : (xorBytes a b).length = min a.length b.length := by simp [xorBytes]

/-- The mask combines byte by byte. -/
theorem xorAssign_mask {md : Bytes → Bytes} (hmd : ∀ x, (md x).length = 32) (K x : Bytes) :
    BS.xorAssign x (hashFromBytes md K x.length schemeHashPrefix) = .ok (xorBytes x (hashFromBytes md K x.length schemeHashPrefix)) := by
  have hl := (mask_spec hmd K x.length schemeHashPrefix).1
  unfold BS.xorAssign
  by_cases h : x.length = 0
  · rw [if_pos h, List.length_eq_zero_iff.mp h]; rfl
  · rw [if_neg h, dif_pos (by omega)]
    congr 1
    apply List.ext_getElem
    · simp [xorBytes, hl]
    · intro i h1 h2
      simp only [List.length_mapIdx] at h1
      simp only [List.getElem_mapIdx, xorBytes, List.getElem_zipWith]
      congr 2
      rw [hl, Nat.mod_eq_of_lt h1]

/-- A shorter mask is the beginning of a longer one. -/
theorem mask_take {md : Bytes → Bytes} (hmd : ∀ x, (md x).length = 32) (K : Bytes) (m n : Nat) (h : m ≤ n) :
    (hashFromBytes md K n schemeHashPrefix).take m = hashFromBytes md K m schemeHashPrefix := by
  obtain ⟨l1, s1⟩ := mask_spec hmd K n schemeHashPrefix
  obtain ⟨l2, s2⟩ := mask_spec hmd K m schemeHashPrefix
  apply List.ext_getElem?
  intro i
  rw [List.getElem?_take]
  split
  · rename_i hi
    rw [s1 i (by omega), s2 i hi]
  · rw [List.getElem?_eq_none (by omega)]

/-- What decryption does after the session key is there. -/
theorem decrypt_of_key {env : Env G1 G2 GT} (hmd : ∀ x, (env.md x).length = 32) {sch : Scheme} {c c1 : Ctx G1 G2 GT}
    {keyID K ed : Bytes} {ct : Ciphertext G1 G2 GT} (hk : decryptKEM q env sch c keyID ct symKeyBytes = .ok (.ok K, c1))
    (hed : SMap.find b!"_ED" ct.comps = some (.bytes ed)) :
    decrypt q env sch c keyID ct = .ok (none, xorBytes ed (hashFromBytes env.md K ed.length schemeHashPrefix), c1) := by
  unfold decrypt
  rw [hk]
  simp only [Res.ok_bind, getBytes_of hed, notNull_some, xorAssign_mask hmd, Scheme.caught_ok]

/-- And the other way round. -/
theorem key_of_decrypt {env : Env G1 G2 GT} (hmd : ∀ x, (env.md x).length = 32) {sch : Scheme} {c c1 : Ctx G1 G2 GT} {keyID p : Bytes}
    {ct : Ciphertext G1 G2 GT} (h : decrypt q env sch c keyID ct = .ok (none, p, c1)) :
    ∃ K ed, decryptKEM q env sch c keyID ct symKeyBytes = .ok (.ok K, c1) ∧ SMap.find b!"_ED" ct.comps = some (.bytes ed) ∧
      p = xorBytes ed (hashFromBytes env.md K ed.length schemeHashPrefix) := by
  unfold decrypt at h
  obtain ⟨⟨res, c2⟩, hk, h⟩ := (Res.bind_eq_ok _ _ _).mp h
  simp only at h
  obtain ⟨o, ho, h⟩ := (Res.bind_eq_ok _ _ _).mp h
  cases o with
  | error e => simp at h
  | ok y =>
    simp only [Res.ok.injEq, Prod.mk.injEq, true_and] at h
    have ho := caught_eq_ok ho
    cases res with
    | error e => cases ho
    | ok K =>
      simp only at ho
      obtain ⟨e1, h1, ho1⟩ := (Res.bind_eq_ok _ _ _).mp ho
      obtain ⟨ed, h2, ho2⟩ := (Res.bind_eq_ok _ _ _).mp ho1
      cases e1 with
      | none => cases h2
      | some e1 =>
        cases h2
        rw [xorAssign_mask hmd] at ho2
        cases ho2
        refine ⟨K, ed, by rw [hk, h.2], ?_, h.1.symm⟩
        unfold getBytes Container.getComponent at h1
        generalize SMap.find b!"_ED" ct.comps = f at h1
        cases f with
        | none => simp at h1
        | some o => cases o <;> simp_all

/-- Altering the masked data alters the plaintext in the same bytes, and cutting it cuts the plaintext. -/
theorem xor_forge (mask ed t : Bytes) (hm : mask.length = ed.length) (ht : t.length ≤ ed.length) :
    xorBytes (xorBytes ed (xorBytes (xorBytes ed mask) t)) (mask.take t.length) = t := by
  apply List.ext_getElem
  · simp only [xorBytes_length, List.length_take]; omega
  · intro i h1 h2
    simp only [xorBytes, List.getElem_zipWith, List.getElem_take]
    rw [show ed[i] ^^^ (ed[i] ^^^ mask[i] ^^^ t[i]) ^^^ mask[i] = t[i] by
      generalize ed[i] = a; generalize mask[i] = b; generalize t[i] = c
      rw [UInt8.xor_assoc a b c, ← UInt8.xor_assoc a a, UInt8.xor_self, UInt8.zero_xor, UInt8.xor_comm b c, UInt8.xor_assoc,
        UInt8.xor_self, UInt8.xor_zero]]

/-! ### Decapsulation with altered attributes or a key of another authority -/
section bodies
variable {env : Env G1 G2 GT}

/-- Decapsulation with the key of an authority `pr'`, for a ciphertext of `pr`, ciphertext-policy: there is a session key. -/
theorem cp_foreign (hnd : env.ndebug = false) {pr pr' : ParamRand q G1 G2} {mpk msk mpk' msk' : Key G1 G2 GT}
    (hpm : cpParams env pr = .ok (mpk.comps, msk.comps)) (hpm' : cpParams env pr' = .ok (mpk'.comps, msk'.comps))
    {c1 c2 c3 : Ctx G1 G2 GT} (hc1 : c1.ready = true) (hc2 : c2.ready = true) (hc3 : c3.ready = true)
    {s : Bytes} {p : Policy} (hp : createPolicyTree env.mktime s = .ok (some p)) (al : AttrList) (t : ZMod q)
    (r : Rand q) (ct : Ciphertext G1 G2 GT) {len : Nat} (hlen : len = 16 ∨ len = 32)
    (hrows : (rowLabels env.md p).Nodup) (hattrs : NoClash env.md al.attrs) (hsat : Satisfies al.attrs p) :
    ∃ dk ct', cpKeyBody env c1 mpk' msk' al t = .ok dk ∧
      cpEncBody env c2 mpk p len r ct =
        .ok (env.kdf len (env.md (groupSerialize 0xB4 (env.wT (r.x • pr.alpha • env.e pr.g1 pr.g2)))), ct') ∧
      ∀ comps, SameKem comps ct'.comps → ∃ K, cpDecBody q env c3 dk comps len = .ok K := by
  obtain ⟨P, M, hPM, f1, f2, f3, f4, f5, f6, f7⟩ := cpParams_ok env pr
  rw [hpm] at hPM
  simp only [Res.ok.injEq, Prod.mk.injEq] at hPM
  obtain ⟨rfl, rfl⟩ := hPM
  obtain ⟨P', M', hPM', f1', f2', f3', f4', f5', f6', f7'⟩ := cpParams_ok env pr'
  rw [hpm'] at hPM'
  simp only [Res.ok.injEq, Prod.mk.injEq] at hPM'
  obtain ⟨rfl, rfl⟩ := hPM'
  obtain ⟨hcomp, t0, hroot, hao, hbin, hfr, hidx⟩ := accepted_shape hp
  obtain ⟨t1, hroot', hs⟩ := hsat
  rw [hroot] at hroot'
  simp only [Option.some.injEq] at hroot'
  subst hroot'
  obtain ⟨sh, co, n, p', h1, h2, hsort, hne, hfind, hsum, hkeys⟩ :=
    share_recover env.sort p t0 al.attrs r.x r.tape hroot hao hbin hfr hidx (unique_of_rowLabels hroot hrows) hs
  have hinj := rows_inj hroot hrows hkeys
  have hkey : cpKeyBody env c1 mpk' msk' al t = .ok (cpDk env pr' al t) := by
    simp only [cpKeyBody, getBytes_of f5', getZP_of f6', getG2_of f2', getG2_of f7', usePairing_ok hc1, Res.ok_bind,
      deref_some, setComponent_attrs, setComponent_g2, cpKeyLoop_eq, ZMod.natCast_zmod_val, cpDk]
  have henc : cpEncBody env c2 mpk p len r ct =
      .ok (env.kdf len (env.md (groupSerialize 0xB4 (env.wT (r.x • pr.alpha • env.e pr.g1 pr.g2)))),
        { ct with alg := c2.alg, comps := SMap.addRows (SMap.insert b!"Cprime" (.g1 (r.x • pr.g1))
          (SMap.insert b!"policy" (.bytes s) ct.comps)) (cpRows env pr.k pr.g2 (pr.a • pr.g1) r.r 0 sh.results) }) := by
    simp only [cpEncBody, getBytes_of f5, getGT_of f4, getG1_of f1, usePairing_ok hc2, Res.ok_bind,
      deref_some, setComponent_bytes, setComponent_g1, hnd, h1, cpEncLoop_eq env mpk pr.k pr.g2 (pr.a • pr.g1) r.r f2 f3,
      symKeyOf_ok env _ hlen, hcomp]
  refine ⟨_, _, hkey, henc, ?_⟩
  intro comps hsame
  have k1 : SMap.find b!"input" (cpDk env pr' al t) = some (.attrs al) := by
    unfold cpDk; rw [find_attrRow_other _ (by intro u; simp [elementLabel])]; rfl
  have k2 : SMap.find b!"K" (cpDk env pr' al t) = some (.g2 (pr'.alpha • pr'.g2 + t • (pr'.a • pr'.g2))) := by
    unfold cpDk; rw [find_attrRow_other _ (by intro u; simp [elementLabel])]; rfl
  have k3 : SMap.find b!"L" (cpDk env pr' al t) = some (.g2 (t • pr'.g2)) := by
    unfold cpDk; rw [find_attrRow_other _ (by intro u; simp [elementLabel])]; rfl
  have e1 : SMap.find b!"policy" comps = some (.bytes s) := by
    rw [hsame _ (by decide), find_cpRows_other _ (by intro u; simp [elementLabel]), SMap.find_insert, if_neg (by decide),
      SMap.find_insert, if_pos rfl]
  have e2 : SMap.find b!"Cprime" comps = some (.g1 (r.x • pr.g1)) := by
    rw [hsame _ (by decide), find_cpRows_other _ (by intro u; simp [elementLabel]), SMap.find_insert, if_pos rfl]
  have hrow : ∀ row ∈ co.results, ∃ ρ : ZMod q,
      SMap.find (elementLabel b!"KX" (hashKey env.md row.2.1)) (cpDk env pr' al t) =
        some (.g1 (t • hashToG1 env pr'.k row.2.1)) ∧
      SMap.find (elementLabel b!"C" (hashKey env.md row.1)) comps =
        some (.g1 (coeffOf sh.results row.1 • (pr.a • pr.g1) + (-ρ) • hashToG1 env pr.k row.2.1)) ∧
      SMap.find (elementLabel b!"D" (hashKey env.md row.1)) comps = some (.g2 (ρ • pr.g2)) := by
    intro row hr
    obtain ⟨hA, hf⟩ := hfind row hr
    obtain ⟨ρ, g1, g2⟩ := find_cpRows (env := env) (k := pr.k) (g2 := pr.g2) (g1a := pr.a • pr.g1) (r := r.r) hsort hinj
      (SMap.insert b!"Cprime" (.g1 (r.x • pr.g1)) (SMap.insert b!"policy" (.bytes s) ct.comps)) hf
    exact ⟨ρ, find_attrRow hattrs _ hA, (hsame.label 67 (by decide) _ _).trans g2,
      (hsame.label 68 (by decide) _ _).trans g1⟩
  choose! ρ hρ using hrow
  simp only [cpDecBody, Container.getComponent, k1, getBytes_of e1, Res.ok_bind, notNull_some, hp, castAttrs, hnd, h2,
    Bool.true_eq_false, if_false, usePairing_ok hc3]
  rw [cpDecLoop_eq env _ comps (fun row => t • hashToG1 env pr'.k row.2.1)
    (fun row => coeffOf sh.results row.1 • (pr.a • pr.g1) + (-(ρ row)) • hashToG1 env pr.k row.2.1)
    (fun row => ρ row • pr.g2) co.results 0 [] hρ]
  have hl : (co.results.map fun row => (row.2.2 • t • hashToG1 env pr'.k row.2.1, ρ row • pr.g2)).length ≠ 0 := by
    simpa using hne
  simp only [Res.ok_bind, List.nil_append, multiPairing, hl, if_false, getG1_of e2, getG2_of k2, getG2_of k3,
    notNull_some, symKeyOf_ok env _ hlen, List.map_map, Function.comp_def]
  exact ⟨_, rfl⟩

/-- Key-policy: what a generated key makes of components that were altered. With the values of an encapsulation of the same authority
for the listed attributes it is the session key, otherwise some session key. -/
theorem kp_altered (hb : Bilinear q env.e) (hnd : env.ndebug = false) {pr : ParamRand q G1 G2}
    {mpk msk : Key G1 G2 GT} (hpm : kpParams env pr = .ok (mpk.comps, msk.comps))
    {c1 c3 : Ctx G1 G2 GT} (hc1 : c1.ready = true) (hc3 : c3.ready = true)
    {s : Bytes} {p : Policy} (hp : createPolicyTree env.mktime s = .ok (some p)) (al : AttrList)
    (r : Rand q) {len : Nat} (hlen : len = 16 ∨ len = 32)
    (hrows : (rowLabels env.md p).Nodup) (hsat : Satisfies al.attrs p) :
    ∃ dk, kpKeyBody env c1 mpk msk p r.tape r.r = .ok dk ∧
      ∀ comps, SMap.find b!"attributes" comps = some (.attrs al) →
        ∀ U, SMap.find b!"Cpr2" comps = some (.g2 U) →
        ∀ V : Bytes → G1, (∀ a ∈ al.attrs, SMap.find (elementLabel b!"C" (hashKey env.md a)) comps = some (.g1 (V a))) →
        (∃ K, kpDecBody q env c3 dk comps len = .ok K) ∧
        ∀ x : ZMod q, U = x • pr.g2 → (∀ a ∈ al.attrs, V a = x • hashToG1 env pr.k a) →
          kpDecBody q env c3 dk comps len =
            .ok (env.kdf len (env.md (groupSerialize 0xB4 (env.wT (x • pr.alpha • env.e pr.g1 pr.g2))))) := by
  obtain ⟨P, M, hPM, f1, f2, f3, f4, f5⟩ := kpParams_ok env pr
  rw [hpm] at hPM
  simp only [Res.ok.injEq, Prod.mk.injEq] at hPM
  obtain ⟨rfl, rfl⟩ := hPM
  obtain ⟨hcomp, t0, hroot, hao, hbin, hfr, hidx⟩ := accepted_shape hp
  obtain ⟨t1, hroot', hs⟩ := hsat
  rw [hroot] at hroot'
  simp only [Option.some.injEq] at hroot'
  subst hroot'
  obtain ⟨sh, co, n, p', h1, h2, hsort, hne, hfind, hsum, hkeys⟩ :=
    share_recover env.sort p t0 al.attrs pr.alpha r.tape hroot hao hbin hfr hidx (unique_of_rowLabels hroot hrows) hs
  have hinj := rows_inj hroot hrows hkeys
  have hkey : kpKeyBody env c1 mpk msk p r.tape r.r = .ok (kpDk env pr s r.r sh.results) := by
    simp only [kpKeyBody, getBytes_of f4, getZP_of f5, Res.ok_bind,
      deref_some, setComponent_bytes, ZMod.natCast_zmod_val, hnd, h1, hcomp]
    split
    · rename_i h; rw [h]; rfl
    · simp only [usePairing_ok hc1, Res.ok_bind, kpKeyLoop_eq env mpk pr.k pr.g1 pr.g2 r.r f1 f2]
      rfl
  refine ⟨_, hkey, ?_⟩
  intro comps e1 U e2 V hV
  have k1 : SMap.find b!"input" (kpDk env pr s r.r sh.results) =
      some (.bytes s : Obj G1 G2 GT) := by
    unfold kpDk; rw [find_kpRows_other _ (by intro u; simp [elementLabel])]; rfl
  have hrow : ∀ row ∈ co.results, ∃ ρ : ZMod q,
      SMap.find (elementLabel b!"C" (hashKey env.md row.2.1)) comps = some (.g1 (V row.2.1)) ∧
      SMap.find (elementLabel b!"D" (hashKey env.md row.1)) (kpDk env pr s r.r sh.results) =
        some (.g1 (coeffOf sh.results row.1 • pr.g1 + ρ • hashToG1 env pr.k row.2.1)) ∧
      SMap.find (elementLabel b!"d" (hashKey env.md row.1)) (kpDk env pr s r.r sh.results) = some (.g2 (ρ • pr.g2)) := by
    intro row hr
    obtain ⟨hA, hf⟩ := hfind row hr
    obtain ⟨ρ, g1, g2⟩ := find_kpRows (env := env) (k := pr.k) (g1 := pr.g1) (g2 := pr.g2) (r := r.r) hsort hinj
      (SMap.insert b!"input" (.bytes s) []) hf
    exact ⟨ρ, hV _ hA, g1, g2⟩
  choose! ρ hρ using hrow
  simp only [kpDecBody, Container.getComponent, e1, getBytes_of k1, Res.ok_bind, notNull_some, hp, castAttrs, hnd, h2,
    Bool.true_eq_false, if_false, usePairing_ok hc3]
  rw [kpDecLoop_eq env _ comps (fun row => V row.2.1)
    (fun row => coeffOf sh.results row.1 • pr.g1 + ρ row • hashToG1 env pr.k row.2.1)
    (fun row => ρ row • pr.g2) co.results 0 [] hρ]
  have hl : (co.results.map fun row => (row.2.2 • V row.2.1, ρ row • pr.g2)).length ≠ 0 := by
    simpa using hne
  simp only [Res.ok_bind, List.nil_append, multiPairing, hl, if_false, getG2_of e2,
    notNull_some, symKeyOf_ok env _ hlen, List.map_map, Function.comp_def]
  refine ⟨⟨_, rfl⟩, ?_⟩
  intro x hU hV'
  have hmap : (co.results.map fun row => env.e (row.2.2 • V row.2.1) (ρ row • pr.g2)) =
      co.results.map fun row => env.e (row.2.2 • x • hashToG1 env pr.k row.2.1) (ρ row • pr.g2) := by
    apply List.map_congr_left
    intro row hr
    rw [hV' _ (hfind row hr).1]
  rw [hU, hmap]
  have := kp_algebra hb co.results (fun row => row.2.2) (fun row => coeffOf sh.results row.1) ρ
    (fun row => hashToG1 env pr.k row.2.1) pr.g1 pr.g2 pr.alpha x hsum
  rw [this]

end bodies

end Authentic
end Abe
