import Verif.Model.Utils
import Verif.Props.Wire
import Verif.Props.KeyMgr
/-!
# Function inputs of ciphertexts and keys (C101), searching a key and decrypting with it (C102)
-/
set_option linter.unusedSimpArgs false
set_option linter.unusedSectionVars false
set_option autoImplicit false
namespace Abe
namespace Cpa
open Scheme
variable {q : Nat} [Fact q.Prime] {G1 G2 GT : Type} [AddCommGroup G1] [AddCommGroup G2] [AddCommGroup GT]
  [Module (ZMod q) G1] [Module (ZMod q) G2] [Module (ZMod q) GT]

/-! ## What stays in the components -/

theorem cpKeyLoop_input {env : Env G1 G2 GT} {k : Option Bytes} {t : ZMod q} : ∀ (as : List Bytes) (d d' : Container G1 G2 GT),
    cpKeyLoop env k t as d = .ok d' → SMap.find b!"input" d' = SMap.find b!"input" d
  | [], d, d', h => by cases h; rfl
  | a :: as, d, d', h => by
    unfold cpKeyLoop at h
    obtain ⟨kb, -, h⟩ := (Res.bind_eq_ok _ _ _).mp h
    obtain ⟨d1, h1, h⟩ := (Res.bind_eq_ok _ _ _).mp h
    rw [cpKeyLoop_input as d1 d' h, set_find_ne h1 (label_ne 75 b!"X" _ 105 _ (by decide))]

theorem kpKeyLoop_input {env : Env G1 G2 GT} {mpk : Key G1 G2 GT} {k : Option Bytes} {r : Nat → ZMod q} :
    ∀ (rows : List (Bytes × (Bytes × ZMod q))) (i : Nat) (d d' : Container G1 G2 GT),
    kpKeyLoop env mpk k r i rows d = .ok d' → SMap.find b!"input" d' = SMap.find b!"input" d
  | [], _, d, d', h => by cases h; rfl
  | row :: rows, i, d, d', h => by
    unfold kpKeyLoop at h
    obtain ⟨_, -, h⟩ := (Res.bind_eq_ok _ _ _).mp h
    obtain ⟨g1, -, h⟩ := (Res.bind_eq_ok _ _ _).mp h
    obtain ⟨kb, -, h⟩ := (Res.bind_eq_ok _ _ _).mp h
    obtain ⟨_, -, h⟩ := (Res.bind_eq_ok _ _ _).mp h
    obtain ⟨g2, -, h⟩ := (Res.bind_eq_ok _ _ _).mp h
    obtain ⟨d1, h1, h⟩ := (Res.bind_eq_ok _ _ _).mp h
    obtain ⟨d2, h2, h⟩ := (Res.bind_eq_ok _ _ _).mp h
    rw [kpKeyLoop_input rows (i + 1) d2 d' h, set_find_ne h2 (label_ne 100 [] _ 105 _ (by decide)),
      set_find_ne h1 (label_ne 68 [] _ 105 _ (by decide))]

theorem cpEncLoop_policy {env : Env G1 G2 GT} {mpk : Key G1 G2 GT} {k : Option Bytes} {r : Nat → ZMod q} :
    ∀ (rows : List (Bytes × (Bytes × ZMod q))) (i : Nat) (d d' : Container G1 G2 GT),
    cpEncLoop env mpk k r i rows d = .ok d' → SMap.find b!"policy" d' = SMap.find b!"policy" d
  | [], _, d, d', h => by cases h; rfl
  | row :: rows, i, d, d', h => by
    unfold cpEncLoop at h
    obtain ⟨_, -, h⟩ := (Res.bind_eq_ok _ _ _).mp h
    obtain ⟨g2, -, h⟩ := (Res.bind_eq_ok _ _ _).mp h
    obtain ⟨d1, h1, h⟩ := (Res.bind_eq_ok _ _ _).mp h
    obtain ⟨kb, -, h⟩ := (Res.bind_eq_ok _ _ _).mp h
    obtain ⟨_, -, h⟩ := (Res.bind_eq_ok _ _ _).mp h
    obtain ⟨g1, -, h⟩ := (Res.bind_eq_ok _ _ _).mp h
    obtain ⟨d2, h2, h⟩ := (Res.bind_eq_ok _ _ _).mp h
    rw [cpEncLoop_policy rows (i + 1) d2 d' h, set_find_ne h2 (label_ne 67 [] _ 112 _ (by decide)),
      set_find_ne h1 (label_ne 68 [] _ 112 _ (by decide))]

/-- The component in which a key keeps its input. -/
theorem keyBody_input {env : Env G1 G2 GT} {sch : Scheme} {c : Ctx G1 G2 GT} {mpk msk : Key G1 G2 GT} {input : FInput}
    {d : Container G1 G2 GT} {r : Rand q}
    (h : (∃ l, sch = .cp ∧ input = .attrs l ∧ cpKeyBody env c mpk msk l r.x = .ok d) ∨
        ∃ p, sch = .kp ∧ input = .policy p ∧ kpKeyBody env c mpk msk p r.tape r.r = .ok d) :
    (∃ l, sch = .cp ∧ input = .attrs l ∧ SMap.find b!"input" d = some (.attrs l)) ∨
    ∃ p, sch = .kp ∧ input = .policy p ∧ SMap.find b!"input" d = some (.bytes p.compact) := by
  rcases h with ⟨l, h1, h2, h⟩ | ⟨p, h1, h2, h⟩
  · refine .inl ⟨l, h1, h2, ?_⟩
    unfold cpKeyBody at h
    obtain ⟨_, -, h⟩ := (Res.bind_eq_ok _ _ _).mp h
    rw [setComponent_attrs, Res.ok_bind] at h
    obtain ⟨_, -, h⟩ := (Res.bind_eq_ok _ _ _).mp h
    obtain ⟨_, -, h⟩ := (Res.bind_eq_ok _ _ _).mp h
    obtain ⟨_, -, h⟩ := (Res.bind_eq_ok _ _ _).mp h
    obtain ⟨_, -, h⟩ := (Res.bind_eq_ok _ _ _).mp h
    obtain ⟨_, -, h⟩ := (Res.bind_eq_ok _ _ _).mp h
    obtain ⟨_, -, h⟩ := (Res.bind_eq_ok _ _ _).mp h
    obtain ⟨_, -, h⟩ := (Res.bind_eq_ok _ _ _).mp h
    obtain ⟨d2, h2, h⟩ := (Res.bind_eq_ok _ _ _).mp h
    obtain ⟨_, -, h⟩ := (Res.bind_eq_ok _ _ _).mp h
    obtain ⟨_, -, h⟩ := (Res.bind_eq_ok _ _ _).mp h
    obtain ⟨d3, h3, h⟩ := (Res.bind_eq_ok _ _ _).mp h
    rw [cpKeyLoop_input _ _ _ h, set_find_ne h3 (by decide), set_find_ne h2 (by decide), SMap.find_insert, if_pos rfl]
  · refine .inr ⟨p, h1, h2, ?_⟩
    unfold kpKeyBody at h
    obtain ⟨_, -, h⟩ := (Res.bind_eq_ok _ _ _).mp h
    rw [setComponent_bytes, Res.ok_bind] at h
    obtain ⟨_, -, h⟩ := (Res.bind_eq_ok _ _ _).mp h
    obtain ⟨_, -, h⟩ := (Res.bind_eq_ok _ _ _).mp h
    obtain ⟨⟨sh, _⟩, -, h⟩ := (Res.bind_eq_ok _ _ _).mp h
    have e1 : SMap.find b!"input" (SMap.insert b!"input" (.bytes p.compact) ([] : Container G1 G2 GT)) = some (.bytes p.compact) := by
      rw [SMap.find_insert, if_pos rfl]
    simp only at h
    split at h
    · cases h; exact e1
    · obtain ⟨_, -, h⟩ := (Res.bind_eq_ok _ _ _).mp h
      rw [kpKeyLoop_input _ _ _ _ h]; exact e1

/-- The component in which a ciphertext keeps its input. -/
theorem encrypt_input_kept {env : Env G1 G2 GT} {sch : Scheme} {c c' : Ctx G1 G2 GT} {id : Bytes} {input : FInput} {pt : Bytes}
    {r : Rand q} {ct ct' : Ciphertext G1 G2 GT} (h : encrypt env sch c id input pt r ct = .ok (.ok ct', c')) :
    ct'.alg = c.alg ∧
    ((∃ p, sch = .cp ∧ input = .policy p ∧ SMap.find b!"policy" ct'.comps = some (.bytes p.compact)) ∨
    ∃ l, sch = .kp ∧ input = .attrs l ∧ SMap.find b!"attributes" ct'.comps = some (.attrs l)) := by
  unfold encrypt at h
  obtain ⟨⟨res, c1⟩, h0, h⟩ := (Res.bind_eq_ok _ _ _).mp h
  cases res with
  | error e => cases h
  | ok kc =>
    obtain ⟨K, ct1⟩ := kc
    simp only at h
    obtain ⟨x, hx, h⟩ := (Res.bind_eq_ok _ _ _).mp h
    obtain ⟨d, hd, h⟩ := (Res.bind_eq_ok _ _ _).mp h
    cases h
    unfold encryptKEM at h0
    have key : ∀ {b : Res (Bytes × Ciphertext G1 G2 GT)} {cc : Ctx G1 G2 GT},
        (caught b >>= fun res => Res.ok (res, cc)) = .ok (.ok (K, ct1), c') → b = .ok (K, ct1) := by
      intro b cc hb
      obtain ⟨res, g1, g2⟩ := (Res.bind_eq_ok _ _ _).mp hb
      cases g2
      unfold caught at g1
      split at g1 <;> simp_all
    cases sch <;> cases input <;> simp only [Bool.true_eq_false, if_false, if_true] at h0
    all_goals first
      | (cases h0)
      | skip
    · cases hm : (c.ks.getPublicKey id).1 with
      | none => rw [hm] at h0; have := key h0; cases this
      | some mpk =>
        rw [hm] at h0
        have h := key h0
        clear h0 key
        simp only at h
        unfold cpEncBody at h
        obtain ⟨k, -, h⟩ := (Res.bind_eq_ok _ _ _).mp h
        obtain ⟨u, -, h⟩ := (Res.bind_eq_ok _ _ _).mp h
        obtain ⟨A0, -, h⟩ := (Res.bind_eq_ok _ _ _).mp h
        obtain ⟨A, -, h⟩ := (Res.bind_eq_ok _ _ _).mp h
        obtain ⟨⟨sh, m⟩, -, h⟩ := (Res.bind_eq_ok _ _ _).mp h
        obtain ⟨d0, h8, h⟩ := (Res.bind_eq_ok _ _ _).mp h
        obtain ⟨g0, -, h⟩ := (Res.bind_eq_ok _ _ _).mp h
        obtain ⟨g1, -, h⟩ := (Res.bind_eq_ok _ _ _).mp h
        obtain ⟨d1, h9, h⟩ := (Res.bind_eq_ok _ _ _).mp h
        obtain ⟨d2, h10, h⟩ := (Res.bind_eq_ok _ _ _).mp h
        obtain ⟨k', -, h⟩ := (Res.bind_eq_ok _ _ _).mp h
        cases h
        cases h8
        refine ⟨rfl, .inl ⟨_, rfl, rfl, ?_⟩⟩
        show SMap.find b!"policy" d = _
        rw [set_find_ne hd (by decide), cpEncLoop_policy _ _ _ _ h10, set_find_ne h9 (by decide), SMap.find_insert, if_pos rfl]
    · cases hm : (c.ks.getPublicKey id).1 with
      | none => rw [hm] at h0; have := key h0; cases this
      | some mpk =>
        rw [hm] at h0
        have h := key h0
        clear h0 key
        simp only at h
        unfold kpEncBody at h
        obtain ⟨k, -, h⟩ := (Res.bind_eq_ok _ _ _).mp h
        obtain ⟨u, -, h⟩ := (Res.bind_eq_ok _ _ _).mp h
        obtain ⟨A0, -, h⟩ := (Res.bind_eq_ok _ _ _).mp h
        obtain ⟨A, -, h⟩ := (Res.bind_eq_ok _ _ _).mp h
        obtain ⟨g0, -, h⟩ := (Res.bind_eq_ok _ _ _).mp h
        obtain ⟨g1, -, h⟩ := (Res.bind_eq_ok _ _ _).mp h
        obtain ⟨d1, h9, h⟩ := (Res.bind_eq_ok _ _ _).mp h
        obtain ⟨d2, h10, h⟩ := (Res.bind_eq_ok _ _ _).mp h
        obtain ⟨d3, h11, h⟩ := (Res.bind_eq_ok _ _ _).mp h
        obtain ⟨k', -, h⟩ := (Res.bind_eq_ok _ _ _).mp h
        cases h
        cases h11
        refine ⟨rfl, .inr ⟨_, rfl, rfl, ?_⟩⟩
        show SMap.find b!"attributes" d = _
        rw [set_find_ne hd (by decide), SMap.find_insert, if_pos rfl]

/-! ## Inputs of objects that went through bytes -/

theorem ct_functionInput_congr (mk : Mktime) {a b : Ciphertext G1 G2 GT} (ha : a.alg = b.alg) (h : Alike a.comps b.comps) :
    a.functionInput mk = b.functionInput mk := by
  unfold Ciphertext.functionInput
  rw [ha, h.bytes]
  rcases h.get b!"attributes" with ⟨o, o', h1, h2, hs⟩ | ⟨h1, h2⟩
  · rw [h1, h2]
    cases hs with
    | refl => rfl
    | int => rfl
    | attrs l m _ _ h => simp only [castAttrs, Res.ok_bind, h]
  · rw [h1, h2]

theorem key_functionInput_congr (mk : Mktime) {a b : Key G1 G2 GT} (ha : a.alg = b.alg) (h : Alike a.comps b.comps) :
    a.functionInput mk = b.functionInput mk := by
  unfold Key.functionInput
  rw [ha, h.bytes]
  rcases h.get b!"input" with ⟨o, o', h1, h2, hs⟩ | ⟨h1, h2⟩
  · rw [h1, h2]
    cases hs with
    | refl => rfl
    | int => rfl
    | attrs l m _ _ h => simp only [castAttrs, Res.ok_bind, h]
  · rw [h1, h2]

theorem Alike.symm {c d : Container G1 G2 GT} (h : Alike c d) : Alike d c := by
  intro n
  have := h n
  revert this
  cases SMap.find n c <;> cases SMap.find n d <;> intro h <;> try exact h
  exact SameObj.symm h

theorem input_of_list {mk : Mktime} {l : Bytes} {al : AttrList} (h : createAttributeList mk l = .ok (some al)) :
    ∃ al', (createAttributeList mk al.compact >>= fun r =>
      Res.ok (match r with | some a => FInput.attrs a | none => .null)) = .ok (.attrs al') ∧
      al'.attrs.Perm al.attrs ∧ al'.orig = al.orig := by
  obtain ⟨al', h1, h2, h3, -⟩ := C29_compact_round_trip l al h
  exact ⟨al', by rw [h1]; rfl, h2, h3⟩

/-! ## C101 -/

/-- A key made for the input `inK`, and a ciphertext made for the input `inE`, report that input: the same policy, or a
list of the same attributes. -/
inductive SameInput : FInput → FInput → Prop
  | policy (p : Policy) : SameInput (.policy p) (.policy p)
  | attrs (l m : AttrList) (h : m.attrs.Perm l.attrs) (ho : m.orig = l.orig) : SameInput (.attrs l) (.attrs m)

/-- The input comes from the parser. -/
inductive FromText (mk : Mktime) : FInput → Prop
  | policy (s : Bytes) (p : Policy) (h : createPolicyTree mk s = .ok (some p)) : FromText mk (.policy p)
  | attrs (s : Bytes) (l : AttrList) (h : createAttributeList mk s = .ok (some l)) : FromText mk (.attrs l)

/-- `getFunctionInput` of a ciphertext gives the input that it was encrypted for, whatever the ciphertext object held
before. The context has the algorithm id of its scheme. -/
theorem C101_ciphertext (env : Env G1 G2 GT) (sch : Scheme) (c c' : Ctx G1 G2 GT) (ha : c.alg = schemeType sch) (id : Bytes)
    (input : FInput) (hi : FromText env.mktime input) (pt : Bytes) (r : Rand q) (ct ct' : Ciphertext G1 G2 GT)
    (h : encrypt env sch c id input pt r ct = .ok (.ok ct', c')) :
    ∃ f, ct'.functionInput env.mktime = .ok f ∧ SameInput input f := by
  obtain ⟨h1, ⟨p, rfl, rfl, h2⟩ | ⟨l, rfl, rfl, h2⟩⟩ := encrypt_input_kept h
  · cases hi with
    | policy s _ hs =>
      have hc : createPolicyTree env.mktime p.compact = .ok (some p) := by rw [(accepted_shape hs).1]; exact hs
      refine ⟨.policy p, ?_, .policy p⟩
      have e : ct'.alg = 101 ∨ ct'.alg = 201 := .inl (h1.trans ha)
      unfold Ciphertext.functionInput
      rw [if_pos e, getBytes_of h2]
      simp only [Res.ok_bind, notNull_some, hc]
  · cases hi with
    | attrs s _ hs =>
      obtain ⟨al', g1, g2, g3⟩ := input_of_list hs
      refine ⟨.attrs al', ?_, .attrs _ _ g2 g3⟩
      have e1 : ct'.alg = 102 := h1.trans ha
      have e : ¬ (ct'.alg = 101 ∨ ct'.alg = 201) := by rw [e1]; decide
      unfold Ciphertext.functionInput
      rw [if_neg e, if_pos (.inl e1)]
      simp only [Container.getComponent, h2, Res.ok_bind, castAttrs]
      exact g1

/-- `getFunctionInput` of a user key gives the input that the key was made for. -/
theorem C101_key (env : Env G1 G2 GT) (sch : Scheme) (c c' : Ctx G1 G2 GT) (ha : c.alg = schemeType sch)
    (input : FInput) (hi : FromText env.mktime input) (keyID mpkID mskID : Bytes) (r : Rand q)
    (h : generateKey env sch c input keyID mpkID mskID r = .ok (none, c')) :
    ∃ dk f, (c'.ks.getSecretKey keyID).1 = some dk ∧ dk.functionInput env.mktime = .ok f ∧ SameInput input f := by
  obtain ⟨mpk, msk, d, -, -, hd, rfl⟩ := generateKey_shape h
  refine ⟨newKey c.alg keyID r.uid d, ?_⟩
  rcases keyBody_input hd with ⟨l, rfl, rfl, h2⟩ | ⟨p, rfl, rfl, h2⟩
  · cases hi with
    | attrs s _ hs =>
      obtain ⟨al', g1, g2, g3⟩ := input_of_list hs
      refine ⟨.attrs al', sec_addSec _ _ _, ?_, .attrs _ _ g2 g3⟩
      unfold Key.functionInput
      have e1 : (newKey c.alg keyID r.uid d).alg = 101 := ha
      have h2' : SMap.find b!"input" (newKey c.alg keyID r.uid d).comps = some (.attrs l) := h2
      rw [e1]
      have e2 : getSchemeID 101 = .ok 101 := rfl
      rw [e2]
      simp only [true_or, if_true, Container.getComponent, h2', Res.ok_bind, castAttrs]
      exact g1
  · cases hi with
    | policy s _ hs =>
      have hc : createPolicyTree env.mktime p.compact = .ok (some p) := by rw [(accepted_shape hs).1]; exact hs
      refine ⟨.policy p, sec_addSec _ _ _, ?_, .policy p⟩
      unfold Key.functionInput
      have e1 : (newKey c.alg keyID r.uid d).alg = 102 := ha
      have h2' : SMap.find b!"input" (newKey c.alg keyID r.uid d).comps = some (.bytes p.compact) := h2
      rw [e1]
      have e2 : getSchemeID 102 = .ok 102 := rfl
      rw [e2]
      have e3 : ¬ ((102 : UInt8) = 101 ∨ (102 : UInt8) = 201) := by decide
      simp only [e3, if_false, true_or, if_true, getBytes_of h2', Res.ok_bind, notNull_some, hc]

/-- Export and import do not change the input that a ciphertext or a key reports, whatever it is. What is missing: values
whose bytes do not fit the length fields. -/
theorem C101_loaded_partial {mk : Mktime} {cd : Codec G1 G2 GT} (hc : CodecOk cd) (ct : Ciphertext G1 G2 GT)
    (huid : ct.uid.length = uidLen) (hv : ct.version ≤ libraryVersion) (ha : KnownAlg ct.alg)
    (hg : Writable mk cd ct.comps) (hne : ct.comps ≠ []) (hsize : Fits cd ct.comps) :
    ∃ out ct', ct.exportBytes cd = .ok out ∧ Ciphertext.load mk cd {} out = .ok ct' ∧
      ct'.functionInput mk = ct.functionInput mk := by
  obtain ⟨out, ct', h1, h2, -, h5, -, h3, h4⟩ := C41_ciphertext_round_trip_partial hc ct huid hv ha hg.1 hg.2 hne hsize
  exact ⟨out, ct', h1, h2, ct_functionInput_congr mk h5 (Alike.symm (alike_of h3 h4))⟩

/-- The code violates C101 for bytes from elsewhere: a key-policy ciphertext whose `attributes` are a byte string is loaded
without complaint, and then the cast reads the wrong object. -/
theorem C101_cast_violated {mk : Mktime} {cd : Codec G1 G2 GT} (hc : CodecOk cd) (b : Bytes) (hb : b.length < 2 ^ 20) :
    ∃ out ct', Ciphertext.load mk cd {} out = .ok ct' ∧ ct'.functionInput mk = (.ub : Res FInput) := by
  let ct : Ciphertext G1 G2 GT := ⟨libraryVersion, 102, List.replicate 16 0, [(b!"attributes", .bytes b)]⟩
  have hg : Writable mk cd ct.comps :=
    ((good_nil (mk := mk) (cd := cd)).set (d := ct.comps) (n := b!"attributes") (o := .bytes b) rfl (by decide) (by decide) (.bytes _ (by omega))).1
  have hf : Fits cd ct.comps := by
    intro out ho
    have e : Container.serialize cd ct.comps = .ok (BS.smartPack [] b!"attributes" ++ (BS.smartPack [] (BS.serialize b) ++ [])) := by
      simp only [ct, Container.serialize, Obj.serialize, Res.ok_bind]
      rw [BS.smartPack_append (BS.smartPack [] b!"attributes"), List.append_assoc]
    rw [e] at ho
    cases ho
    have h1 := smartPack_length b!"attributes"
    have h2 := smartPack_length (BS.serialize b)
    have h3 : (BS.serialize b).length = 5 + b.length := by simp [BS.serialize, BS.be32]; omega
    have h4 : (b!"attributes").length = 10 := rfl
    simp only [List.append_nil, List.length_append]
    omega
  obtain ⟨out, ct', h1, h2, h3⟩ := C101_loaded_partial hc ct (by rfl) (UInt8.le_refl _) (by show (102 : UInt8) ∈ _; decide) hg (by simp [ct]) hf
  exact ⟨out, ct', h2, h3.trans rfl⟩

/-! ## C102 -/

theorem sameInput_opens {k k' e e' : FInput} (hk : SameInput k k') (he : SameInput e e') : k'.opens e' ↔ k.opens e := by
  cases hk <;> cases he
  · exact Iff.rfl
  · rename_i p l m h _
    simp only [FInput.opens, Scheme.Satisfies]
    have : ∀ t : TNode, sat m.attrs t ↔ sat l.attrs t := fun t => ⟨sat_mono (fun a ha => h.mem_iff.mp ha) t, sat_mono (fun a ha => h.mem_iff.mpr ha) t⟩
    simp only [this]
  · rename_i l m h _ p
    simp only [FInput.opens, Scheme.Satisfies]
    have : ∀ t : TNode, sat m.attrs t ↔ sat l.attrs t := fun t => ⟨sat_mono (fun a ha => h.mem_iff.mp ha) t, sat_mono (fun a ha => h.mem_iff.mpr ha) t⟩
    simp only [this]
  · exact Iff.rfl

/-- The bytes of a user key that the authority issued for `input`: made in a context that holds the master keys of `c1`
(it may have issued other keys before), under an id that names no public key, then exported. -/
def Issued (env : Env G1 G2 GT) (cd : Codec G1 G2 GT) (sch : Scheme) (c1 : Ctx G1 G2 GT) (mpkID mskID : Bytes) (input : FInput)
    (blob : Bytes) : Prop :=
  ∃ (cA c2 c3 : Ctx G1 G2 GT) (keyID : Bytes) (kr : Rand q) (dk : Key G1 G2 GT), cA.ready = true ∧ cA.alg = c1.alg ∧
    (cA.ks.getPublicKey mpkID).1 = (c1.ks.getPublicKey mpkID).1 ∧ (cA.ks.getSecretKey mskID).1 = (c1.ks.getSecretKey mskID).1 ∧
    (cA.ks.getPublicKey keyID).1 = none ∧ kr.uid.length = uidLen ∧ keyID.length < 2 ^ 31 ∧
    generateKey env sch cA input keyID mpkID mskID kr = .ok (none, c2) ∧
    (c2.ks.getSecretKey keyID).1 = some dk ∧ Fits cd dk.comps ∧ exportKey cd c2 keyID = .ok (.ok blob, c3)

/-- What can be done with an issued key: the key manager sees its input, and any context of the scheme can load it. -/
theorem issued_use {env : Env G1 G2 GT} {cd : Codec G1 G2 GT} (hc : CodecOk cd) {sch : Scheme} {c1 : Ctx G1 G2 GT}
    (ha : c1.alg = schemeType sch) (hr : c1.ready = true) {mpkID mskID : Bytes} {input : FInput} {blob : Bytes}
    (h : Issued (q := q) env cd sch c1 mpkID mskID input blob) (hi : FromText env.mktime input) (hw : WritableInput env.mktime cd input)
    {kenv : KmEnv G1 G2 GT} (hk1 : kenv.mktime = env.mktime) (hk2 : kenv.codec = cd) :
    (∃ f, KeyMgr.Holds kenv blob f ∧ SameInput input f) ∧
    ∃ (keyID : Bytes) (kr : Rand q) (dk : Key G1 G2 GT),
      madeKey keyID (generateKey env sch c1 input keyID mpkID mskID kr) = .ok (.ok (some dk)) ∧
      ∀ (cD : Ctx G1 G2 GT) (idD rnd : Bytes), cD.alg = c1.alg → ∃ cD1 dk',
        loadUserSecretParams env.mktime cd cD idD blob rnd = .ok (none, cD1) ∧ cD1.ready = true ∧
        (cD1.ks.getSecretKey idD).1 = some dk' ∧ Alike dk.comps dk'.comps := by
  obtain ⟨cA, c2, c3, keyID, kr, dk, r1, r2, r3, r4, r5, r6, r7, r8, r9, r10, r11⟩ := h
  have r8' := r8
  obtain ⟨dk0, f, k1, k2, k3⟩ := C101_key env sch cA c2 (r2.trans ha) input hi keyID mpkID mskID kr r8
  rw [r9] at k1
  cases k1
  obtain ⟨mpk, msk, d, h1, h2, hd, rfl⟩ := generateKey_shape r8
  have e : dk = newKey cA.alg keyID kr.uid d := by rw [sec_addSec] at r9; cases r9; rfl
  have w : Writable env.mktime cd d ∧ d ≠ [] := by
    rcases hd with ⟨l, -, rfl, h⟩ | ⟨p, -, rfl, h⟩
    · exact cpKeyBody_good h hw
    · exact kpKeyBody_good h hw
  have hka : KnownAlg cA.alg := by
    rw [r2, ha]; unfold KnownAlg; cases sch <;> decide
  have hkey : ((((cA.ks.getPublicKey mpkID).2.getSecretKey mskID).2.addKey keyID (newKey cA.alg keyID kr.uid d) .sec).getKey keyID).1 =
      some (newKey cA.alg keyID kr.uid d) := by
    apply getKey_sec
    · rw [pub_addSec, pub_after_sec, pub_after_pub]; exact r5
    · exact sec_addSec _ _ _
  subst e
  obtain ⟨blob', c', x1, -, -, x4⟩ := key_transport (mk := env.mktime) hc
    (c := ⟨cA.alg, cA.ready, ((cA.ks.getPublicKey mpkID).2.getSecretKey mskID).2.addKey keyID (newKey cA.alg keyID kr.uid d) .sec⟩)
    hkey r6 rfl r7 hka w r10
  rw [r11] at x1
  cases x1
  refine ⟨⟨f, ?_, k3⟩, keyID, kr, newKey cA.alg keyID kr.uid d, ?_, ?_⟩
  · obtain ⟨out, body, k0, k1, g1, g2, g3, g4, g5, g6, g7, g8, g9⟩ := C42_key_round_trip_partial (mk := env.mktime) hc
      (newKey cA.alg keyID kr.uid d) [] r6 rfl r7 hka w.1.1 w.1.2 w.2 r10
    have hout : out = blob := by
      unfold exportKey at r11
      simp only [hkey, g1, caught_ok, Res.ok_bind, Res.ok.injEq, Prod.mk.injEq, Except.ok.injEq] at r11
      exact r11.1
    subst hout
    have hal : k0.alg = k1.alg := by
      unfold Key.loadBody at g3
      obtain ⟨_, -, g3⟩ := (Res.bind_eq_ok _ _ _).mp g3
      cases g3; rfl
    have hal2 : k1.alg = cA.alg := g5
    have hfi : k1.functionInput env.mktime = .ok f := by
      rw [← k2]
      exact key_functionInput_congr env.mktime g5 (Alike.symm (alike_of g8 g9))
    refine ⟨[], cA.alg, ?_⟩
    unfold KeyMgr.parseBlob
    have hne : ¬ cA.alg = 0 := by rw [r2, ha]; cases sch <;> decide
    rw [g2]
    simp only [Res.ok_bind, hal, hal2, getSchemeID_ok hka, hne, if_false, hk1, hk2, g3, hfi]
  · have h3 : (c1.ks.getPublicKey mpkID).1 = some mpk := by rw [← r3]; exact h1
    have h4 : (c1.ks.getSecretKey mskID).1 = some msk := by rw [← r4]; exact h2
    rw [generateKey_congr env sch (c := c1) (c' := cA) (by rw [hr, r1]) r2.symm h3 h1 (Alike.refl _) h4 h2 (Alike.refl _)
      input keyID kr, r8']
    simp only [madeKey, Res.ok_bind, sec_addSec]
  · intro cD idD rnd hD
    obtain ⟨d', v1, v2, -, v4⟩ := x4 cD idD rnd .sec (hD.trans r2.symm)
    obtain ⟨dk', v5, v6⟩ := v4 (by decide)
    exact ⟨d', dk', v1, v2, v5, v6⟩

/-- The core: all keys of the user are issued ones, an issued key that opens the ciphertext decrypts it (in the context that
made it). -/
theorem search_decrypt {env : Env G1 G2 GT} {cd : Codec G1 G2 GT} (hc : CodecOk cd) {sch : Scheme} {c1 : Ctx G1 G2 GT}
    (ha : c1.alg = schemeType sch) (hr : c1.ready = true) {mpkID mskID : Bytes}
    {kenv : KmEnv G1 G2 GT} (hk1 : kenv.mktime = env.mktime) (hk2 : kenv.codec = cd)
    {P : FInput → Prop} (hP : ∀ f, P f → FromText env.mktime f ∧ WritableInput env.mktime cd f)
    {inE : FInput} (hE : FromText env.mktime inE) {ct ct' : Ciphertext G1 G2 GT} {plaintext : Bytes}
    (hfi : ∃ f, ct'.functionInput env.mktime = .ok f ∧ SameInput inE f) (hal : Alike ct.comps ct'.comps)
    (hdec : ∀ inK, P inK → inK.opens inE → ∀ (keyID : Bytes) (kr : Rand q) (dk : Key G1 G2 GT),
      madeKey keyID (generateKey env sch c1 inK keyID mpkID mskID kr) = .ok (.ok (some dk)) →
      ∃ (cD cD' : Ctx G1 G2 GT) (idD : Bytes), cD.ready = true ∧ (cD.ks.getSecretKey idD).1 = some dk ∧
        decrypt q env sch cD idD ct = .ok (none, plaintext, cD'))
    {log : KeyMgr.Log} {km : KeyMgr G1 G2 GT} (hreach : KeyMgr.Reach kenv log km) (qu : Query)
    (hiss : ∀ id blob, log.latest id = some (qu.userId, blob) → ∃ inK, P inK ∧ Issued (q := q) env cd sch c1 mpkID mskID inK blob) :
    ∃ f id km' f', ct'.functionInput env.mktime = .ok f ∧ KeyMgr.search kenv km qu f = .ok (id, km', f') ∧
      (id ≠ [] → ∃ txt blob, KeyMgr.getKey km' qu.userId id = .ok (txt, blob) ∧
        ∀ (cD : Ctx G1 G2 GT) (idD rnd : Bytes), cD.alg = c1.alg → ∃ cD1 cD2,
          loadUserSecretParams env.mktime cd cD idD blob rnd = .ok (none, cD1) ∧
          decrypt q env sch cD1 idD ct' = .ok (none, plaintext, cD2)) ∧
      (∀ j blob inK, log.latest j = some (qu.userId, blob) → P inK → Issued (q := q) env cd sch c1 mpkID mskID inK blob →
        inK.opens inE → qu.userId ≠ [] → log.latest [] = none → id ≠ []) := by
  obtain ⟨f, f1, f2⟩ := hfi
  have hready : f.Ready := by
    cases f2 with
    | policy p =>
      cases hE with
      | policy s _ hs => exact createPolicyTree_ready hs
    | attrs => exact trivial
  obtain ⟨id, km', f', s1, s2⟩ := KeyMgr.C65_search_sound hreach qu hready
  refine ⟨f, id, km', f', f1, s1, ?_, ?_⟩
  · intro hid
    obtain ⟨blob, inp, l1, l2, l3⟩ := s2 hid
    obtain ⟨inK, p1, p2⟩ := hiss id blob l1
    obtain ⟨⟨g, g1, g2⟩, keyID, kr, dk, m1, m2⟩ := issued_use hc ha hr p2 (hP _ p1).1 (hP _ p1).2 hk1 hk2
    have : inp = g := KeyMgr.Holds.unique l2 g1
    subst this
    have hop : inK.opens inE := (sameInput_opens g2 f2).mp l3
    obtain ⟨cD0, cD0', idD0, d1, d2, d3⟩ := hdec inK p1 hop keyID kr dk m1
    obtain ⟨r, r1, r2, -⟩ := KeyMgr.C63_get_latest hreach qu.userId id
    refine ⟨r.1, blob, ?_, ?_⟩
    · rw [(KeyMgr.C65_search_keeps_keys hreach hready s1).1, r1]
      obtain ⟨e, -⟩ := r2 blob l1
      rw [← e]
    · intro cD idD rnd hD
      obtain ⟨cD1, dk', v1, v2, v3, v4⟩ := m2 cD idD rnd hD
      have hcg := decrypt_congr (q := q) env sch (c := cD0) (c' := cD1) (by rw [d1, v2]) d2 v3 v4 hal
      rw [d3] at hcg
      obtain ⟨⟨x1, x2, x3⟩, j1, j2⟩ := (Res.bind_eq_ok _ _ _).mp hcg.symm
      cases j2
      exact ⟨cD1, x3, v1, j1⟩
  · intro j blob inK l1 p1 p2 hop hu he
    obtain ⟨⟨g, g1, g2⟩, -⟩ := issued_use hc ha hr p2 (hP _ p1).1 (hP _ p1).2 hk1 hk2
    obtain ⟨id', km1, f1', t1, t2⟩ := KeyMgr.C65_search_complete_partial hreach qu hready hu he l1 g1 ((sameInput_opens g2 f2).mpr hop)
    rw [s1] at t1
    cases t1
    exact t2

/-- The bytes of a ciphertext-policy key issued for a text of attributes `a`. -/
def CpIssued (env : Env G1 G2 GT) (cd : Codec G1 G2 GT) (c1 : Ctx G1 G2 GT) (mpkID mskID : Bytes) (a : AExpr) (blob : Bytes) : Prop :=
  ∃ l al, ListText env.mktime l a ∧ createAttributeList env.mktime l = .ok (some al) ∧ NoClash env.md al.attrs ∧
    al.compact.length < 2 ^ 31 ∧ Issued (q := q) env cd .cp c1 mpkID mskID (.attrs al) blob

/-- The bytes of a key-policy key issued for a policy text `e`. -/
def KpIssued (env : Env G1 G2 GT) (cd : Codec G1 G2 GT) (c1 : Ctx G1 G2 GT) (mpkID mskID : Bytes) (e : Expr) (blob : Bytes) : Prop :=
  ∃ s p, PolicyText env.mktime s e ∧ e.Unnumbered ∧ createPolicyTree env.mktime s = .ok (some p) ∧ NoClash env.md (rowNames p) ∧
    s.length < 2 ^ 31 ∧ Issued (q := q) env cd .kp c1 mpkID mskID (.policy p) blob

/-- Searching and decrypting, ciphertext-policy. A key manager in any reachable state holds keys for a user; all of them were
issued by one authority. A ciphertext for the policy `e` arrives as bytes. Then `getFunctionInput` of the ciphertext can be
given to the search; the key that the search selects can be fetched, loaded into any context of the scheme, and decrypts the
ciphertext; and if some key of the user has attributes that make `e` true, a key is selected.

The limits that the statement names: values whose bytes fit the length fields; names that do not collide after hashing
(`NoClash`); no key stored under the empty id (C65). -/
theorem C102_cp (env : Env G1 G2 GT) (hb : Bilinear q env.e) (hnd : env.ndebug = false)
    (hmd : ∀ x, (env.md x).length = 32) (cd : Codec G1 G2 GT) (hc : CodecOk cd)
    (c c1 : Ctx G1 G2 GT) (hal : c.alg = 101) (mpkID mskID : Bytes) (pr : ParamRand q G1 G2)
    (hgen : generateParams env .cp c mpkID mskID pr = .ok (none, c1))
    (s : Bytes) (e : Expr) (hs : PolicyText env.mktime s e) (hpct : e.Unnumbered) (hs31 : s.length < 2 ^ 31) (p : Policy)
    (hp : createPolicyTree env.mktime s = .ok (some p)) (hrn : NoClash env.md (rowNames p))
    (cE cE' : Ctx G1 G2 GT) (idE : Bytes) (hEr : cE.ready = true) (hEa : cE.alg = 101)
    (hEk : (cE.ks.getPublicKey idE).1 = (c1.ks.getPublicKey mpkID).1)
    (ct0 ct : Ciphertext G1 G2 GT) (hu : ct0.uid.length = uidLen) (hv : ct0.version ≤ libraryVersion) (h0 : ct0.comps = [])
    (plaintext : Bytes) (hpt : plaintext.length < 2 ^ 31) (er : Rand q)
    (henc : encrypt env .cp cE idE (.policy p) plaintext er ct0 = .ok (.ok ct, cE')) (hfit : Fits cd ct.comps)
    (kenv : KmEnv G1 G2 GT) (hk1 : kenv.mktime = env.mktime) (hk2 : kenv.codec = cd)
    (log : KeyMgr.Log) (km : KeyMgr G1 G2 GT) (hreach : KeyMgr.Reach kenv log km) (qu : Query)
    (hiss : ∀ id blob, log.latest id = some (qu.userId, blob) → ∃ a, CpIssued (q := q) env cd c1 mpkID mskID a blob) :
    ∃ out ct', ct.exportBytes cd = .ok out ∧ Ciphertext.load env.mktime cd {} out = .ok ct' ∧
      ∃ f id km' f', ct'.functionInput env.mktime = .ok f ∧ KeyMgr.search kenv km qu f = .ok (id, km', f') ∧
      (id ≠ [] → ∃ txt blob, KeyMgr.getKey km' qu.userId id = .ok (txt, blob) ∧
        ∀ (cD : Ctx G1 G2 GT) (idD rnd : Bytes), cD.alg = 101 → ∃ cD1 cD2,
          loadUserSecretParams env.mktime cd cD idD blob rnd = .ok (none, cD1) ∧
          decrypt q env .cp cD1 idD ct' = .ok (none, plaintext, cD2)) ∧
      (∀ j blob a, log.latest j = some (qu.userId, blob) → CpIssued (q := q) env cd c1 mpkID mskID a blob →
        e.trueFor env.mktime a → qu.userId ≠ [] → log.latest [] = none → id ≠ []) := by
  have hpl : p.compact.length < 2 ^ 31 := by rw [(accepted_shape hp).1]; exact hs31
  obtain ⟨w, i1, i2, i3⟩ := encrypt_good (mk := env.mktime) (cd := cd) henc (by rw [h0]; exact good_nil) hpl hpt
  have hka : KnownAlg ct.alg := by rw [i3, hEa]; unfold KnownAlg; decide
  obtain ⟨out, ct', o1, o2, -, o3, -, o4, o5⟩ := C41_ciphertext_round_trip_partial (mk := env.mktime) hc ct (by rw [i2]; exact hu)
    (by rw [i1]; exact hv) hka w.1.1 w.1.2 w.2 hfit
  obtain ⟨f, f1, f2⟩ := C101_ciphertext env .cp cE cE' hEa idE (.policy p) (.policy s p hp) plaintext er ct0 ct henc
  have hA := alike_of o4 o5
  have hfi : ∃ f, ct'.functionInput env.mktime = .ok f ∧ SameInput (.policy p) f :=
    ⟨f, by rw [ct_functionInput_congr env.mktime o3 (Alike.symm hA)]; exact f1, f2⟩
  have hr1 : c1.ready = true := (generateParams_ok hgen).1
  have ha1 : c1.alg = 101 := by
    obtain ⟨_, _, _, -, e1⟩ := generateParams_shape hgen
    rw [e1]; exact hal
  refine ⟨out, ct', o1, o2, ?_⟩
  let P : FInput → Prop := fun f => ∃ l a al, f = .attrs al ∧ ListText env.mktime l a ∧ createAttributeList env.mktime l = .ok (some al) ∧
    NoClash env.md al.attrs ∧ al.compact.length < 2 ^ 31
  have hopens : ∀ {l : Bytes} {a : AExpr} {al : AttrList}, ListText env.mktime l a → createAttributeList env.mktime l = .ok (some al) →
      ((FInput.attrs al).opens (.policy p) ↔ e.trueFor env.mktime a) := by
    intro l a al h1 h2
    obtain ⟨p', al', t1, t2, -, t3⟩ := texts hs h1 hpct
    rw [hp] at t1; cases t1
    rw [h2] at t2; cases t2
    exact t3
  obtain ⟨f, id, km', f', z1, z2, z3, z4⟩ := search_decrypt (q := q) (env := env) hc (sch := .cp) (c1 := c1) ha1 hr1 (mpkID := mpkID) (mskID := mskID)
    hk1 hk2 (P := P) (by
      rintro f ⟨l, a, al, rfl, h1, h2, h3, h4⟩
      exact ⟨.attrs l al h2, .attrs al l h2 h4⟩) (inE := .policy p) (.policy s p hp) (ct := ct) (ct' := ct') (plaintext := plaintext) hfi hA (by
      rintro inK ⟨l, a, al, rfl, h1, h2, h3, h4⟩ hop keyID kr dk hm
      obtain ⟨p', al', t1, t2, t3⟩ := C46_cp_texts env hb hnd hmd c c1 mpkID mskID keyID pr kr er hgen s l e a hs h1 hpct ct0 plaintext
      rw [hp] at t1; cases t1
      rw [h2] at t2; cases t2
      obtain ⟨mpk, c2, dk', a1, a2, a3, a4⟩ := t3 hrn h3
      rw [a2] at hm
      simp only [madeKey, Res.ok_bind, a3, Res.ok.injEq, Except.ok.injEq, Option.some.injEq] at hm
      subst hm
      have hr2 : c2.ready = true := by
        obtain ⟨_, _, _, _, _, _, e2⟩ := generateKey_shape a2
        rw [e2]; exact hr1
      obtain ⟨ct2, x1, x2, y1, y2, -⟩ := a4 cE c2 idE keyID hEr hr2 (by rw [hEk]; exact a1) a3
      rw [henc] at y1
      cases y1
      exact ⟨c2, x2, keyID, hr2, a3, y2 ((hopens h1 h2).mp hop)⟩) hreach qu (by
      intro id blob hl
      obtain ⟨a, l, al, h1, h2, h3, h4, h5⟩ := hiss id blob hl
      exact ⟨.attrs al, ⟨l, a, al, rfl, h1, h2, h3, h4⟩, h5⟩)
  refine ⟨f, id, km', f', z1, z2, ?_, ?_⟩
  · intro hid
    obtain ⟨txt, blob, y1, y2⟩ := z3 hid
    exact ⟨txt, blob, y1, fun cD idD rnd h => y2 cD idD rnd (h.trans ha1.symm)⟩
  · rintro j blob a hj ⟨l, al, h1, h2, h3, h4, h5⟩ ht
    exact z4 j blob (.attrs al) hj ⟨l, a, al, rfl, h1, h2, h3, h4⟩ h5 ((hopens h1 h2).mpr ht)

/-- Searching and decrypting, key-policy: as `C102_cp`, with attributes in the ciphertext and policies in the keys. -/
theorem C102_kp (env : Env G1 G2 GT) (hb : Bilinear q env.e) (hnd : env.ndebug = false)
    (hmd : ∀ x, (env.md x).length = 32) (cd : Codec G1 G2 GT) (hc : CodecOk cd)
    (c c1 : Ctx G1 G2 GT) (hal : c.alg = 102) (mpkID mskID : Bytes) (pr : ParamRand q G1 G2)
    (hgen : generateParams env .kp c mpkID mskID pr = .ok (none, c1))
    (l : Bytes) (a : AExpr) (hl : ListText env.mktime l a) (al : AttrList)
    (hp : createAttributeList env.mktime l = .ok (some al)) (hl31 : al.compact.length < 2 ^ 31) (hrn : NoClash env.md al.attrs)
    (cE cE' : Ctx G1 G2 GT) (idE : Bytes) (hEr : cE.ready = true) (hEa : cE.alg = 102)
    (hEk : (cE.ks.getPublicKey idE).1 = (c1.ks.getPublicKey mpkID).1)
    (ct0 ct : Ciphertext G1 G2 GT) (hu : ct0.uid.length = uidLen) (hv : ct0.version ≤ libraryVersion) (h0 : ct0.comps = [])
    (plaintext : Bytes) (hpt : plaintext.length < 2 ^ 31) (er : Rand q)
    (henc : encrypt env .kp cE idE (.attrs al) plaintext er ct0 = .ok (.ok ct, cE')) (hfit : Fits cd ct.comps)
    (kenv : KmEnv G1 G2 GT) (hk1 : kenv.mktime = env.mktime) (hk2 : kenv.codec = cd)
    (log : KeyMgr.Log) (km : KeyMgr G1 G2 GT) (hreach : KeyMgr.Reach kenv log km) (qu : Query)
    (hiss : ∀ id blob, log.latest id = some (qu.userId, blob) → ∃ e, KpIssued (q := q) env cd c1 mpkID mskID e blob) :
    ∃ out ct', ct.exportBytes cd = .ok out ∧ Ciphertext.load env.mktime cd {} out = .ok ct' ∧
      ∃ f id km' f', ct'.functionInput env.mktime = .ok f ∧ KeyMgr.search kenv km qu f = .ok (id, km', f') ∧
      (id ≠ [] → ∃ txt blob, KeyMgr.getKey km' qu.userId id = .ok (txt, blob) ∧
        ∀ (cD : Ctx G1 G2 GT) (idD rnd : Bytes), cD.alg = 102 → ∃ cD1 cD2,
          loadUserSecretParams env.mktime cd cD idD blob rnd = .ok (none, cD1) ∧
          decrypt q env .kp cD1 idD ct' = .ok (none, plaintext, cD2)) ∧
      (∀ j blob e, log.latest j = some (qu.userId, blob) → KpIssued (q := q) env cd c1 mpkID mskID e blob →
        e.trueFor env.mktime a → qu.userId ≠ [] → log.latest [] = none → id ≠ []) := by
  obtain ⟨w, i1, i2, i3⟩ := encrypt_good (mk := env.mktime) (cd := cd) henc (by rw [h0]; exact good_nil) (.attrs al l hp hl31) hpt
  have hka : KnownAlg ct.alg := by rw [i3, hEa]; unfold KnownAlg; decide
  obtain ⟨out, ct', o1, o2, -, o3, -, o4, o5⟩ := C41_ciphertext_round_trip_partial (mk := env.mktime) hc ct (by rw [i2]; exact hu)
    (by rw [i1]; exact hv) hka w.1.1 w.1.2 w.2 hfit
  obtain ⟨f, f1, f2⟩ := C101_ciphertext env .kp cE cE' hEa idE (.attrs al) (.attrs l al hp) plaintext er ct0 ct henc
  have hA := alike_of o4 o5
  have hfi : ∃ f, ct'.functionInput env.mktime = .ok f ∧ SameInput (.attrs al) f :=
    ⟨f, by rw [ct_functionInput_congr env.mktime o3 (Alike.symm hA)]; exact f1, f2⟩
  have hr1 : c1.ready = true := (generateParams_ok hgen).1
  have ha1 : c1.alg = 102 := by
    obtain ⟨_, _, _, -, e1⟩ := generateParams_shape hgen
    rw [e1]; exact hal
  refine ⟨out, ct', o1, o2, ?_⟩
  let P : FInput → Prop := fun f => ∃ s e p, f = .policy p ∧ PolicyText env.mktime s e ∧ e.Unnumbered ∧
    createPolicyTree env.mktime s = .ok (some p) ∧ NoClash env.md (rowNames p) ∧ s.length < 2 ^ 31
  have hopens : ∀ {s : Bytes} {e : Expr} {p : Policy}, PolicyText env.mktime s e → e.Unnumbered → createPolicyTree env.mktime s = .ok (some p) →
      ((FInput.policy p).opens (.attrs al) ↔ e.trueFor env.mktime a) := by
    intro s e p h1 h2 h3
    obtain ⟨p', al', t1, t2, -, t3⟩ := texts h1 hl h2
    rw [h3] at t1; cases t1
    rw [hp] at t2; cases t2
    exact t3
  obtain ⟨f, id, km', f', z1, z2, z3, z4⟩ := search_decrypt (q := q) (env := env) hc (sch := .kp) (c1 := c1) ha1 hr1 (mpkID := mpkID) (mskID := mskID)
    hk1 hk2 (P := P) (by
      rintro f ⟨s, e, p, rfl, h1, h2, h3, h4, h5⟩
      refine ⟨.policy s p h3, ?_⟩
      show p.compact.length < 2 ^ 31
      rw [(accepted_shape h3).1]; exact h5) (inE := .attrs al) (.attrs l al hp) (ct := ct) (ct' := ct') (plaintext := plaintext) hfi hA (by
      rintro inK ⟨s, e, p, rfl, h1, h2, h3, h4, h5⟩ hop keyID kr dk hm
      obtain ⟨p', al', t1, t2, t3⟩ := C46_kp_texts env hb hnd hmd c c1 mpkID mskID keyID pr kr er hgen s l e a h1 hl h2 ct0 plaintext
      rw [h3] at t1; cases t1
      rw [hp] at t2; cases t2
      obtain ⟨mpk, c2, dk', a1, a2, a3, a4⟩ := t3 h4 hrn
      rw [a2] at hm
      simp only [madeKey, Res.ok_bind, a3, Res.ok.injEq, Except.ok.injEq, Option.some.injEq] at hm
      subst hm
      have hr2 : c2.ready = true := by
        obtain ⟨_, _, _, _, _, _, e2⟩ := generateKey_shape a2
        rw [e2]; exact hr1
      obtain ⟨ct2, x1, x2, y1, y2, -⟩ := a4 cE c2 idE keyID hEr hr2 (by rw [hEk]; exact a1) a3
      rw [henc] at y1
      cases y1
      exact ⟨c2, x2, keyID, hr2, a3, y2 ((hopens h1 h2 h3).mp hop)⟩) hreach qu (by
      intro id blob hl
      obtain ⟨e, s, p, h1, h2, h3, h4, h5, h6⟩ := hiss id blob hl
      exact ⟨.policy p, ⟨s, e, p, rfl, h1, h2, h3, h4, h5⟩, h6⟩)
  refine ⟨f, id, km', f', z1, z2, ?_, ?_⟩
  · intro hid
    obtain ⟨txt, blob, y1, y2⟩ := z3 hid
    exact ⟨txt, blob, y1, fun cD idD rnd h => y2 cD idD rnd (h.trans ha1.symm)⟩
  · rintro j blob e hj ⟨s, p, h1, h2, h3, h4, h5, h6⟩ ht
    exact z4 j blob (.policy p) hj ⟨s, e, p, rfl, h1, h2, h3, h4, h5⟩ h6 ((hopens h1 h2 h3).mpr ht)

/-! ### A concrete history: a key for `|a|c`, stored for alice, and a ciphertext for `a and (b or c)` -/

namespace SearchEx

def kenv : KmEnv (ZMod 5) (ZMod 5) (ZMod 5) := ⟨Toy.mk0, WireEx.codec, LsssEx.sort, KeyMgr.Ex.refs, false⟩

/-- The key is made, exported and stored; the ciphertext is made; everything is short. -/
def session : Bool :=
  match generateParams WireEx.env .cp WireEx.ctx b!"mpk" b!"msk" WireEx.pr, createAttributeList Toy.mk0 b!"|a|c",
      createPolicyTree Toy.mk0 b!"a and (b or c)" with
  | .ok (none, c1), .ok (some al), .ok (some p) =>
    match generateKey WireEx.env .cp c1 (.attrs al) b!"dk" b!"mpk" b!"msk" WireEx.rnd with
    | .ok (none, c2) =>
      match (c2.ks.getSecretKey b!"dk").1, exportKey WireEx.codec c2 b!"dk",
        encrypt WireEx.env .cp c1 b!"mpk" (.policy p) b!"hello" WireEx.rnd { uid := WireEx.u } with
      | some dk, .ok (.ok blob, _), .ok (.ok ct, _) => WireEx.fits dk.comps && WireEx.fits ct.comps && (c1.ks.getPublicKey b!"dk").1.isNone &&
        decide (al.compact.length < 1000) && c1.ready && decide (c1.alg = 101) &&
        (match (KeyMgr.store kenv {} b!"alice" b!"k1" blob 100 false []).1 with | .ok true => true | _ => false)
      | _, _, _ => false
    | _ => false
  | _, _, _ => false

theorem session_ok : session = true := by decide +kernel

/-- The hypotheses of `C102_cp` are met, with a key that makes the policy true. -/
example : ∃ c1 p ct cE' blob km, generateParams WireEx.env .cp WireEx.ctx b!"mpk" b!"msk" WireEx.pr = .ok (none, c1) ∧
    createPolicyTree Toy.mk0 b!"a and (b or c)" = .ok (some p) ∧ NoClash WireEx.env.md (rowNames p) ∧ c1.ready = true ∧ c1.alg = 101 ∧
    encrypt WireEx.env .cp c1 b!"mpk" (.policy p) b!"hello" WireEx.rnd { uid := WireEx.u } = .ok (.ok ct, cE') ∧ Fits WireEx.codec ct.comps ∧
    KeyMgr.Reach kenv [(b!"k1", some (b!"alice", blob))] km ∧
    ∃ e a, PolicyText Toy.mk0 b!"a and (b or c)" e ∧ e.Unnumbered ∧ CpIssued (q := 5) WireEx.env WireEx.codec c1 b!"mpk" b!"msk" a blob ∧
      e.trueFor Toy.mk0 a := by
  have h := session_ok
  unfold session at h
  split at h
  · rename_i c1 al p h1 h2 h3
    split at h
    · rename_i c2 h4
      split at h
      · rename_i dk blob cx ct cy h5 h6 h7
        simp only [Bool.and_eq_true, decide_eq_true_eq, Option.isNone_iff_eq_none] at h
        obtain ⟨⟨⟨⟨⟨⟨f1, f2⟩, f3⟩, f4⟩, f5⟩, f6⟩, f7⟩ := h
        refine ⟨c1, p, ct, cy, blob, _, h1, h3, ?_, f5, f6, h7, WireEx.fits_spec f2,
          .stored _ _ _ 100 false [] .new (KeyMgr.Ex.fst_true f7), _, _, Toy.text3 Toy.mk0, Toy.pct3,
          ⟨_, al, Toy.list3 Toy.mk0, h2, ?_, by omega, ?_⟩, Toy.true3 Toy.mk0⟩
        · rw [Toy.names3 h3]; exact Toy.short_noClash (by decide)
        · rw [Toy.attrs3 Toy.mk0 h2]; exact Toy.short_noClash (by decide)
        · exact ⟨c1, c2, cx, b!"dk", WireEx.rnd, dk, f5, rfl, rfl, rfl, f3, rfl, by decide, h4, h5, WireEx.fits_spec f1, h6⟩
      · cases h
    · cases h
  · cases h

/-- The hypotheses of `C101_ciphertext` and `C101_key` are met by the ciphertext and the key of this session. -/
example : ∃ c1 c2 p al ct cE', c1.alg = schemeType .cp ∧ FromText Toy.mk0 (.policy p) ∧ FromText Toy.mk0 (.attrs al) ∧
    encrypt WireEx.env .cp c1 b!"mpk" (.policy p) b!"hello" WireEx.rnd { uid := WireEx.u } = .ok (.ok ct, cE') ∧
    generateKey WireEx.env .cp c1 (.attrs al) b!"dk" b!"mpk" b!"msk" WireEx.rnd = .ok (none, c2) := by
  have h := session_ok
  unfold session at h
  split at h
  · rename_i c1 al p h1 h2 h3
    split at h
    · rename_i c2 h4
      split at h
      · rename_i dk blob cx ct cy h5 h6 h7
        simp only [Bool.and_eq_true, decide_eq_true_eq, Option.isNone_iff_eq_none] at h
        exact ⟨c1, c2, p, al, ct, cy, h.1.2, .policy _ p h3, .attrs _ al h2, h7, h4⟩
      · cases h
    · cases h
  · cases h

end SearchEx

end Cpa
end Abe
