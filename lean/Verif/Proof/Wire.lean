import Verif.Model.Cpa
import Verif.Props.Scheme
import Verif.Props.Container
/-!
# Components that went through bytes behave like the originals
-/
set_option linter.unusedSimpArgs false
set_option linter.unusedSectionVars false
set_option autoImplicit false
namespace Abe

/-! ## Attribute lists matter only through membership -/

section lsss
variable (S : StdSort) {A B : List Bytes} (h : ∀ x, A.contains x = B.contains x)
include h

mutual
theorem scan_congr : ∀ t : TNode, scan S A t = scan S B t
  | .leaf fl pre lab idx => by simp only [scan, h]
  | .gate fl ty thr subs => by simp only [scan, scanL_congr subs]
theorem scanL_congr : ∀ ts : List TNode, scanL S A ts = scanL S B ts
  | [] => rfl
  | c :: cs => by simp only [scanL, scanL_congr cs, scan_congr c]
end

theorem recover_congr {F : Type} [Field F] [DecidableEq F] (nd : Bool) (o : LSSS F) (p : Option Policy) :
    recoverCoefficients S nd o p A = recoverCoefficients S nd o p B := by
  unfold recoverCoefficients
  simp only [scan_congr S h]

end lsss

namespace Scheme
variable {G1 G2 GT : Type}

/-- Two containers with the same names and, up to what the byte format loses, the same components. -/
def Alike (c d : Container G1 G2 GT) : Prop :=
  ∀ n, match SMap.find n c, SMap.find n d with
    | none, none => True
    | some o, some o' => SameObj o o'
    | _, _ => False

theorem Alike.refl (c : Container G1 G2 GT) : Alike c c := by
  intro n; cases SMap.find n c with
  | none => trivial
  | some o => exact .refl o

/-- The answer of a lookup. -/
theorem Alike.get {c d : Container G1 G2 GT} (h : Alike c d) (n : Bytes) :
    (∃ o o', (Container.getComponent c n).1 = .ok o ∧ (Container.getComponent d n).1 = .ok o' ∧ SameObj o o') ∨
    ((Container.getComponent c n).1 = .throw .elementNotFound ∧ (Container.getComponent d n).1 = .throw .elementNotFound) := by
  have hn := h n
  unfold Container.getComponent
  cases h1 : SMap.find n c with
  | none =>
    cases h2 : SMap.find n d with
    | none => exact .inr ⟨rfl, rfl⟩
    | some o' => rw [h1, h2] at hn; exact hn.elim
  | some o =>
    cases h2 : SMap.find n d with
    | none => rw [h1, h2] at hn; exact hn.elim
    | some o' =>
      rw [h1, h2] at hn
      cases hn with
      | refl => cases o with
        | null => exact .inr ⟨rfl, rfl⟩
        | _ => exact .inl ⟨_, _, rfl, rfl, .refl _⟩
      | int a b e => exact .inl ⟨_, _, rfl, rfl, .int _ _ e⟩
      | attrs a b e f g => exact .inl ⟨_, _, rfl, rfl, .attrs _ _ e f g⟩

section getters
variable {c d : Container G1 G2 GT} (h : Alike c d) (n : Bytes)
include h

theorem Alike.zp : getZP c n = getZP d n := by
  unfold getZP
  rcases h.get n with ⟨o, o', h1, h2, hs⟩ | ⟨h1, h2⟩ <;> rw [h1, h2]
  cases hs <;> rfl
theorem Alike.g1 : getG1 c n = getG1 d n := by
  unfold getG1
  rcases h.get n with ⟨o, o', h1, h2, hs⟩ | ⟨h1, h2⟩ <;> rw [h1, h2]
  cases hs <;> rfl
theorem Alike.g2 : getG2 c n = getG2 d n := by
  unfold getG2
  rcases h.get n with ⟨o, o', h1, h2, hs⟩ | ⟨h1, h2⟩ <;> rw [h1, h2]
  cases hs <;> rfl
theorem Alike.gt : getGT c n = getGT d n := by
  unfold getGT
  rcases h.get n with ⟨o, o', h1, h2, hs⟩ | ⟨h1, h2⟩ <;> rw [h1, h2]
  cases hs <;> rfl
theorem Alike.bytes : getBytes c n = getBytes d n := by
  unfold getBytes
  rcases h.get n with ⟨o, o', h1, h2, hs⟩ | ⟨h1, h2⟩ <;> rw [h1, h2]
  cases hs <;> rfl

/-- Reading an attribute list: the same failure, or lists with the same attributes. -/
theorem Alike.list {α : Type} {f g : AttrList → Res α} (hfg : ∀ l m : AttrList, m.attrs.Perm l.attrs → f l = g m) :
    ((Container.getComponent c n).1 >>= fun o => castAttrs o >>= f) =
    ((Container.getComponent d n).1 >>= fun o => castAttrs o >>= g) := by
  rcases h.get n with ⟨o, o', h1, h2, hs⟩ | ⟨h1, h2⟩ <;> rw [h1, h2]
  · cases hs with
    | refl => cases o with
      | attrs l => exact hfg l l (List.Perm.refl _)
      | _ => rfl
    | int => rfl
    | attrs l m e _ _ => exact hfg l m e
  · rfl

end getters

variable {q : Nat} [Fact q.Prime]
variable [AddCommGroup G1] [Module (ZMod q) G1] [AddCommGroup G2] [Module (ZMod q) G2] [AddCommGroup GT]
  [Module (ZMod q) GT]

theorem cpDecLoop_congr (env : Env G1 G2 GT) {key key' ct ct' : Container G1 G2 GT} (hk : Alike key key') (hc : Alike ct ct') :
    ∀ (rows : List (Bytes × (Bytes × ZMod q))) (p : G1) (l : List (G1 × G2)),
      cpDecLoop env key ct rows p l = cpDecLoop env key' ct' rows p l
  | [], _, _ => rfl
  | row :: rows, p, l => by
    simp only [cpDecLoop, hk.g1, hc.g1, hc.g2, cpDecLoop_congr env hk hc rows]

theorem kpDecLoop_congr (env : Env G1 G2 GT) {key key' ct ct' : Container G1 G2 GT} (hk : Alike key key') (hc : Alike ct ct') :
    ∀ (rows : List (Bytes × (Bytes × ZMod q))) (p : G1) (l : List (G1 × G2)),
      kpDecLoop env key ct rows p l = kpDecLoop env key' ct' rows p l
  | [], _, _ => rfl
  | row :: rows, p, l => by
    simp only [kpDecLoop, hk.g1, hk.g2, hc.g1, kpDecLoop_congr env hk hc rows]

theorem perm_contains {A B : List Bytes} (h : B.Perm A) (x : Bytes) : A.contains x = B.contains x := by
  rw [Bool.eq_iff_iff, List.contains_iff_mem, List.contains_iff_mem]
  exact (h.mem_iff).symm

/-- The body of decapsulation with the lookup of the list last. -/
def cpDecRest (q : Nat) [Fact q.Prime] [Module (ZMod q) G1] (env : Env G1 G2 GT) (c : Ctx G1 G2 GT)
    (key ct : Container G1 G2 GT) (len : Nat) (pol : Option Policy) (attrs : AttrList) : Res Bytes := do
  let (good, o, _) ← recoverCoefficients (F := ZMod q) env.sort env.ndebug {} pol attrs.attrs
  if good = false then .throw .decryptionFailed
  else do
    let (prod1, l) ← cpDecLoop env key ct o.results 0 []
    usePairing c
    let prodT ← multiPairing env l
    let Cprime ← getG1 ct b!"Cprime"
    let K ← getG2 key b!"K"
    let L ← getG2 key b!"L"
    let Cprime ← notNull Cprime
    let K ← notNull K
    let L ← notNull L
    symKeyOf env (env.e Cprime K - (prodT + env.e prod1 L)) len

theorem cpDecBody_congr (env : Env G1 G2 GT) {c c' : Ctx G1 G2 GT} (hr : c.ready = c'.ready)
    {key key' ct ct' : Container G1 G2 GT} (hk : Alike key key') (hc : Alike ct ct') (len : Nat) :
    cpDecBody q env c key ct len = cpDecBody q env c' key' ct' len := by
  have hu : usePairing c = usePairing c' := by unfold usePairing; rw [hr]
  have hrest : ∀ pol (l m : AttrList), m.attrs.Perm l.attrs →
      cpDecRest q env c key ct len pol l = cpDecRest q env c' key' ct' len pol m := by
    intro pol l m e
    unfold cpDecRest
    simp only [recover_congr env.sort (perm_contains e), cpDecLoop_congr env hk hc, hu, hc.g1, hk.g2]
  have hb : ∀ (c : Ctx G1 G2 GT) (key ct : Container G1 G2 GT), cpDecBody q env c key ct len =
      ((Container.getComponent key b!"input").1 >>= fun inp => getBytes ct b!"policy" >>= fun t => notNull t >>= fun text =>
        createPolicyTree env.mktime text >>= fun pol => castAttrs inp >>= cpDecRest q env c key ct len pol) := fun _ _ _ => rfl
  rw [hb, hb, hc.bytes]
  cases ht : (getBytes ct' b!"policy" >>= fun t => notNull t >>= fun text => createPolicyTree env.mktime text) with
  | ok pol =>
    obtain ⟨t, h1, h2⟩ := (Res.bind_eq_ok _ _ _).mp ht
    obtain ⟨text, h3, h4⟩ := (Res.bind_eq_ok _ _ _).mp h2
    simp only [h1, h3, h4, Res.ok_bind]
    exact hk.list _ (hrest pol)
  | _ =>
    rcases hk.get b!"input" with ⟨o, o', h1, h2, hs⟩ | ⟨h1, h2⟩
    · simp only [h1, h2, Res.ok_bind]
      cases g1 : getBytes ct' b!"policy" with
      | ok t =>
        simp only [g1, Res.ok_bind] at ht ⊢
        cases g2 : notNull t with
        | ok text =>
          simp only [g2, Res.ok_bind] at ht ⊢
          rw [ht]; rfl
        | _ => rfl
      | _ => rfl
    · rw [h1, h2]; rfl

theorem kpDecBody_congr (env : Env G1 G2 GT) {c c' : Ctx G1 G2 GT} (hr : c.ready = c'.ready)
    {key key' ct ct' : Container G1 G2 GT} (hk : Alike key key') (hc : Alike ct ct') (len : Nat) :
    kpDecBody q env c key ct len = kpDecBody q env c' key' ct' len := by
  have hu : usePairing c = usePairing c' := by unfold usePairing; rw [hr]
  unfold kpDecBody
  rw [hk.bytes]
  congr 1; funext t
  congr 1; funext text
  congr 1; funext pol
  apply hc.list
  intro l m e
  simp only [recover_congr env.sort (perm_contains e), kpDecLoop_congr env hk hc, hu, hc.g2]

theorem cpEncLoop_congr (env : Env G1 G2 GT) {mpk mpk' : Key G1 G2 GT} (hk : Alike mpk.comps mpk'.comps) (k : Option Bytes)
    (r : Nat → ZMod q) : ∀ (rows : List (Bytes × (Bytes × ZMod q))) (i : Nat) (d : Container G1 G2 GT),
      cpEncLoop env mpk k r i rows d = cpEncLoop env mpk' k r i rows d
  | [], _, _ => rfl
  | row :: rows, i, d => by simp only [cpEncLoop, hk.g2, hk.g1, cpEncLoop_congr env hk k r rows]

theorem cpEncBody_congr (env : Env G1 G2 GT) {c c' : Ctx G1 G2 GT} (hr : c.ready = c'.ready) (ha : c.alg = c'.alg)
    {mpk mpk' : Key G1 G2 GT} (hk : Alike mpk.comps mpk'.comps) (p : Policy) (len : Nat) (r : Rand q) (ct : Ciphertext G1 G2 GT) :
    cpEncBody env c mpk p len r ct = cpEncBody env c' mpk' p len r ct := by
  have hu : usePairing c = usePairing c' := by unfold usePairing; rw [hr]
  simp only [cpEncBody, hk.bytes, hk.gt, hk.g1, hu, ha, cpEncLoop_congr env hk]

theorem kpEncBody_congr (env : Env G1 G2 GT) {c c' : Ctx G1 G2 GT} (hr : c.ready = c'.ready) (ha : c.alg = c'.alg)
    {mpk mpk' : Key G1 G2 GT} (hk : Alike mpk.comps mpk'.comps) (l : AttrList) (len : Nat) (r : Rand q) (ct : Ciphertext G1 G2 GT) :
    kpEncBody env c mpk l len r ct = kpEncBody env c' mpk' l len r ct := by
  have hu : usePairing c = usePairing c' := by unfold usePairing; rw [hr]
  simp only [kpEncBody, hk.bytes, hk.gt, hk.g2, hu, ha]

theorem kpKeyLoop_congr (env : Env G1 G2 GT) {mpk mpk' : Key G1 G2 GT} (hk : Alike mpk.comps mpk'.comps) (k : Option Bytes)
    (r : Nat → ZMod q) : ∀ (rows : List (Bytes × (Bytes × ZMod q))) (i : Nat) (d : Container G1 G2 GT),
      kpKeyLoop env mpk k r i rows d = kpKeyLoop env mpk' k r i rows d
  | [], _, _ => rfl
  | row :: rows, i, d => by simp only [kpKeyLoop, hk.g2, hk.g1, kpKeyLoop_congr env hk k r rows]

theorem cpKeyBody_congr (env : Env G1 G2 GT) {c c' : Ctx G1 G2 GT} (hr : c.ready = c'.ready)
    {mpk mpk' msk msk' : Key G1 G2 GT} (hk : Alike mpk.comps mpk'.comps) (hs : Alike msk.comps msk'.comps) (l : AttrList)
    (t : ZMod q) : cpKeyBody env c mpk msk l t = cpKeyBody env c' mpk' msk' l t := by
  have hu : usePairing c = usePairing c' := by unfold usePairing; rw [hr]
  simp only [cpKeyBody, hk.bytes, hk.g2, hs.zp, hs.g2, hu]

theorem kpKeyBody_congr (env : Env G1 G2 GT) {c c' : Ctx G1 G2 GT} (hr : c.ready = c'.ready)
    {mpk mpk' msk msk' : Key G1 G2 GT} (hk : Alike mpk.comps mpk'.comps) (hs : Alike msk.comps msk'.comps) (p : Policy)
    (tape r : Nat → ZMod q) : kpKeyBody env c mpk msk p tape r = kpKeyBody env c' mpk' msk' p tape r := by
  have hu : usePairing c = usePairing c' := by unfold usePairing; rw [hr]
  simp only [kpKeyBody, hk.bytes, hs.zp, hu, kpKeyLoop_congr env hk]

/-- Encryption depends on the context only through algorithm id, pairing and the public key, up to what the byte format
loses. -/
theorem encrypt_congr (env : Env G1 G2 GT) (sch : Scheme) {c c' : Ctx G1 G2 GT} (hr : c.ready = c'.ready) (ha : c.alg = c'.alg)
    {id id' : Bytes} {mpk mpk' : Key G1 G2 GT} (h1 : (c.ks.getPublicKey id).1 = some mpk)
    (h2 : (c'.ks.getPublicKey id').1 = some mpk') (hk : Alike mpk.comps mpk'.comps) (input : FInput) (pt : Bytes)
    (r : Rand q) (ct : Ciphertext G1 G2 GT) :
    (encrypt env sch c id input pt r ct >>= fun x => .ok x.1) = (encrypt env sch c' id' input pt r ct >>= fun x => .ok x.1) := by
  unfold encrypt encryptKEM
  simp only [h1, h2]
  cases sch <;> cases input <;> simp only [Bool.true_eq_false, if_false, if_true] <;> try rfl
  all_goals
    first
    | rw [cpEncBody_congr env hr ha hk]
    | rw [kpEncBody_congr env hr ha hk]
  · cases caught (cpEncBody env c' mpk' _ symKeyBytes r ct) with
    | ok x =>
      simp only [Res.ok_bind]
      cases x with
      | error e => rfl
      | ok y =>
        simp only
        cases BS.xorAssign pt (hashFromBytes env.md y.1 pt.length schemeHashPrefix) <;> rfl
    | _ => rfl
  · cases caught (kpEncBody env c' mpk' _ symKeyBytes r ct) with
    | ok x =>
      simp only [Res.ok_bind]
      cases x with
      | error e => rfl
      | ok y =>
        simp only
        cases BS.xorAssign pt (hashFromBytes env.md y.1 pt.length schemeHashPrefix) <;> rfl
    | _ => rfl

/-- Decryption depends on context and ciphertext only through pairing, key and components, up to what the byte format
loses. -/
theorem decrypt_congr (env : Env G1 G2 GT) (sch : Scheme) {c c' : Ctx G1 G2 GT} (hr : c.ready = c'.ready)
    {id id' : Bytes} {dk dk' : Key G1 G2 GT} (h1 : (c.ks.getSecretKey id).1 = some dk)
    (h2 : (c'.ks.getSecretKey id').1 = some dk') (hk : Alike dk.comps dk'.comps) {ct ct' : Ciphertext G1 G2 GT}
    (hc : Alike ct.comps ct'.comps) :
    (decrypt q env sch c id ct >>= fun x => .ok (x.1, x.2.1)) = (decrypt q env sch c' id' ct' >>= fun x => .ok (x.1, x.2.1)) := by
  unfold decrypt
  rw [decryptKEM_ok h1, decryptKEM_ok h2]
  cases sch with
  | cp =>
    simp only [cpDecBody_congr env hr hk hc, hc.bytes]
    cases caught (cpDecBody q env c' dk'.comps ct'.comps symKeyBytes) with
    | ok x =>
      simp only [Res.ok_bind]
      generalize caught _ = y
      cases y with
      | ok z => cases z <;> rfl
      | _ => rfl
    | _ => rfl
  | kp =>
    simp only [kpDecBody_congr env hr hk hc, hc.bytes]
    cases caught (kpDecBody q env c' dk'.comps ct'.comps symKeyBytes) with
    | ok x =>
      simp only [Res.ok_bind]
      generalize caught _ = y
      cases y with
      | ok z => cases z <;> rfl
      | _ => rfl
    | _ => rfl

/-! ## What the schemes produce can be written -/

/-- Sorted components that survive the byte format. -/
def Writable (mk : Mktime) (cd : Codec G1 G2 GT) (c : Container G1 G2 GT) : Prop :=
  SMap.Sorted c ∧ AllStorable mk cd c

section good
variable {mk : Mktime} {cd : Codec G1 G2 GT}

theorem good_nil : Writable mk cd ([] : Container G1 G2 GT) := ⟨SMap.sorted_nil, by intro p hp; cases hp⟩

theorem storable_clone {o : Obj G1 G2 GT} (h : Storable mk cd o) : o.clone = .ok o := by cases h <;> rfl

theorem Writable.set {c d : Container G1 G2 GT} (h : Writable mk cd c) {n : Bytes} {o : Obj G1 G2 GT}
    (hs : Container.setComponent c n o = .ok d) (h0 : n ≠ []) (h1 : n.length < 2 ^ 32) (ho : Storable mk cd o) :
    Writable mk cd d ∧ d ≠ [] := by
  unfold Container.setComponent at hs
  rw [storable_clone ho] at hs
  cases hs
  refine ⟨⟨SMap.sorted_insert h.1, ?_⟩, ?_⟩
  · intro p hp
    rcases SMap.mem_insert' hp with rfl | hp
    · exact ⟨h0, h1, ho⟩
    · exact h.2 p hp
  · intro e
    have : SMap.find n (SMap.insert n o c) = some o := by rw [SMap.find_insert, if_pos rfl]
    rw [e] at this; cases this

theorem hashKey_length (md : Bytes → Bytes) (x : Bytes) : (hashKey md x).length ≤ 16 := by
  unfold hashKey
  split
  · rw [toLowerHex_length, List.length_take]; omega
  · omega

theorem label_ok (md : Bytes → Bytes) (b : UInt8) (bs x : Bytes) (hb : bs.length < 8) :
    elementLabel (b :: bs) (hashKey md x) ≠ [] ∧ (elementLabel (b :: bs) (hashKey md x)).length < 2 ^ 32 := by
  have := hashKey_length md x
  refine ⟨by simp [elementLabel], ?_⟩
  simp only [elementLabel, List.length_append, List.length_cons, List.length_nil]
  omega

theorem cpKeyLoop_good {env : Env G1 G2 GT} {k : Option Bytes} {t : ZMod q} : ∀ (as : List Bytes) (d d' : Container G1 G2 GT),
    cpKeyLoop env k t as d = .ok d' → Writable mk cd d ∧ d ≠ [] → Writable mk cd d' ∧ d' ≠ []
  | [], d, d', h, hg => by cases h; exact hg
  | a :: as, d, d', h, hg => by
    unfold cpKeyLoop at h
    obtain ⟨kb, -, h⟩ := (Res.bind_eq_ok _ _ _).mp h
    obtain ⟨d1, h1, h⟩ := (Res.bind_eq_ok _ _ _).mp h
    obtain ⟨l1, l2⟩ := label_ok env.md 75 b!"X" a (by decide)
    exact cpKeyLoop_good as d1 d' h (hg.1.set h1 l1 l2 (.g1 _))

theorem kpEncLoop_good {env : Env G1 G2 GT} {k : Option Bytes} {t : ZMod q} : ∀ (as : List Bytes) (d d' : Container G1 G2 GT),
    kpEncLoop env k t as d = .ok d' → Writable mk cd d ∧ d ≠ [] → Writable mk cd d' ∧ d' ≠ []
  | [], d, d', h, hg => by cases h; exact hg
  | a :: as, d, d', h, hg => by
    unfold kpEncLoop at h
    obtain ⟨kb, -, h⟩ := (Res.bind_eq_ok _ _ _).mp h
    obtain ⟨d1, h1, h⟩ := (Res.bind_eq_ok _ _ _).mp h
    obtain ⟨l1, l2⟩ := label_ok env.md 67 [] a (by decide)
    exact kpEncLoop_good as d1 d' h (hg.1.set h1 l1 l2 (.g1 _))

theorem cpEncLoop_good {env : Env G1 G2 GT} {mpk : Key G1 G2 GT} {k : Option Bytes} {r : Nat → ZMod q} :
    ∀ (rows : List (Bytes × (Bytes × ZMod q))) (i : Nat) (d d' : Container G1 G2 GT),
    cpEncLoop env mpk k r i rows d = .ok d' → Writable mk cd d ∧ d ≠ [] → Writable mk cd d' ∧ d' ≠ []
  | [], _, d, d', h, hg => by cases h; exact hg
  | row :: rows, i, d, d', h, hg => by
    unfold cpEncLoop at h
    obtain ⟨_, -, h⟩ := (Res.bind_eq_ok _ _ _).mp h
    obtain ⟨g2, -, h⟩ := (Res.bind_eq_ok _ _ _).mp h
    obtain ⟨d1, h1, h⟩ := (Res.bind_eq_ok _ _ _).mp h
    obtain ⟨kb, -, h⟩ := (Res.bind_eq_ok _ _ _).mp h
    obtain ⟨_, -, h⟩ := (Res.bind_eq_ok _ _ _).mp h
    obtain ⟨g1a, -, h⟩ := (Res.bind_eq_ok _ _ _).mp h
    obtain ⟨d2, h2, h⟩ := (Res.bind_eq_ok _ _ _).mp h
    obtain ⟨l1, l2⟩ := label_ok env.md 68 [] row.1 (by decide)
    obtain ⟨l3, l4⟩ := label_ok env.md 67 [] row.1 (by decide)
    exact cpEncLoop_good rows (i + 1) d2 d' h ((hg.1.set h1 l1 l2 (.g2 _)).1.set h2 l3 l4 (.g1 _))

theorem kpKeyLoop_good {env : Env G1 G2 GT} {mpk : Key G1 G2 GT} {k : Option Bytes} {r : Nat → ZMod q} :
    ∀ (rows : List (Bytes × (Bytes × ZMod q))) (i : Nat) (d d' : Container G1 G2 GT),
    kpKeyLoop env mpk k r i rows d = .ok d' → Writable mk cd d ∧ d ≠ [] → Writable mk cd d' ∧ d' ≠ []
  | [], _, d, d', h, hg => by cases h; exact hg
  | row :: rows, i, d, d', h, hg => by
    unfold kpKeyLoop at h
    obtain ⟨_, -, h⟩ := (Res.bind_eq_ok _ _ _).mp h
    obtain ⟨g1, -, h⟩ := (Res.bind_eq_ok _ _ _).mp h
    obtain ⟨kb, -, h⟩ := (Res.bind_eq_ok _ _ _).mp h
    obtain ⟨_, -, h⟩ := (Res.bind_eq_ok _ _ _).mp h
    obtain ⟨g2, -, h⟩ := (Res.bind_eq_ok _ _ _).mp h
    obtain ⟨d1, h1, h⟩ := (Res.bind_eq_ok _ _ _).mp h
    obtain ⟨d2, h2, h⟩ := (Res.bind_eq_ok _ _ _).mp h
    obtain ⟨l1, l2⟩ := label_ok env.md 68 [] row.1 (by decide)
    obtain ⟨l3, l4⟩ := label_ok env.md 100 [] row.1 (by decide)
    exact kpKeyLoop_good rows (i + 1) d2 d' h ((hg.1.set h1 l1 l2 (.g1 _)).1.set h2 l3 l4 (.g2 _))

theorem cpParams_good {env : Env G1 G2 GT} {r : ParamRand q G1 G2} {P M : Container G1 G2 GT}
    (h : cpParams env r = .ok (P, M)) (hk : r.k.length < 2 ^ 31) (ho : cd.order = q) :
    (Writable mk cd P ∧ P ≠ []) ∧ Writable mk cd M ∧ M ≠ [] := by
  unfold cpParams at h
  obtain ⟨p1, h1, h⟩ := (Res.bind_eq_ok _ _ _).mp h
  obtain ⟨p2, h2, h⟩ := (Res.bind_eq_ok _ _ _).mp h
  obtain ⟨p3, h3, h⟩ := (Res.bind_eq_ok _ _ _).mp h
  obtain ⟨p4, h4, h⟩ := (Res.bind_eq_ok _ _ _).mp h
  obtain ⟨p5, h5, h⟩ := (Res.bind_eq_ok _ _ _).mp h
  obtain ⟨m1, h6, h⟩ := (Res.bind_eq_ok _ _ _).mp h
  obtain ⟨m2, h7, h⟩ := (Res.bind_eq_ok _ _ _).mp h
  cases h
  have a1 := (good_nil (mk := mk) (cd := cd)).set h1 (by decide) (by decide) (.g1 _)
  have a2 := a1.1.set h2 (by decide) (by decide) (.g2 _)
  have a3 := a2.1.set h3 (by decide) (by decide) (.g1 _)
  have a4 := a3.1.set h4 (by decide) (by decide) (.gt _)
  have a5 := a4.1.set h5 (by decide) (by decide) (.bytes _ hk)
  have b1 := (good_nil (mk := mk) (cd := cd)).set h6 (by decide) (by decide)
    (.zp _ (by rw [ho]; exact Nat.le_of_lt (ZMod.val_lt _)))
  exact ⟨a5, b1.1.set h7 (by decide) (by decide) (.g2 _)⟩

theorem kpParams_good {env : Env G1 G2 GT} {r : ParamRand q G1 G2} {P M : Container G1 G2 GT}
    (h : kpParams env r = .ok (P, M)) (hk : r.k.length < 2 ^ 31) (ho : cd.order = q) :
    (Writable mk cd P ∧ P ≠ []) ∧ Writable mk cd M ∧ M ≠ [] := by
  unfold kpParams at h
  obtain ⟨p1, h1, h⟩ := (Res.bind_eq_ok _ _ _).mp h
  obtain ⟨p2, h2, h⟩ := (Res.bind_eq_ok _ _ _).mp h
  obtain ⟨p4, h4, h⟩ := (Res.bind_eq_ok _ _ _).mp h
  obtain ⟨p5, h5, h⟩ := (Res.bind_eq_ok _ _ _).mp h
  obtain ⟨m1, h6, h⟩ := (Res.bind_eq_ok _ _ _).mp h
  cases h
  have a1 := (good_nil (mk := mk) (cd := cd)).set h1 (by decide) (by decide) (.g1 _)
  have a2 := a1.1.set h2 (by decide) (by decide) (.g2 _)
  have a4 := a2.1.set h4 (by decide) (by decide) (.gt _)
  have a5 := a4.1.set h5 (by decide) (by decide) (.bytes _ hk)
  exact ⟨a5, (good_nil (mk := mk) (cd := cd)).set h6 (by decide) (by decide)
    (.zp _ (by rw [ho]; exact Nat.le_of_lt (ZMod.val_lt _)))⟩

theorem cpKeyBody_good {env : Env G1 G2 GT} {c : Ctx G1 G2 GT} {mpk msk : Key G1 G2 GT} {l : AttrList} {t : ZMod q}
    {d : Container G1 G2 GT} (h : cpKeyBody env c mpk msk l t = .ok d) (hl : Storable mk cd (.attrs l)) :
    Writable mk cd d ∧ d ≠ [] := by
  unfold cpKeyBody at h
  obtain ⟨_, -, h⟩ := (Res.bind_eq_ok _ _ _).mp h
  obtain ⟨d1, h1, h⟩ := (Res.bind_eq_ok _ _ _).mp h
  obtain ⟨_, -, h⟩ := (Res.bind_eq_ok _ _ _).mp h
  obtain ⟨_, -, h⟩ := (Res.bind_eq_ok _ _ _).mp h
  obtain ⟨_, -, h⟩ := (Res.bind_eq_ok _ _ _).mp h
  obtain ⟨_, -, h⟩ := (Res.bind_eq_ok _ _ _).mp h
  obtain ⟨_, -, h⟩ := (Res.bind_eq_ok _ _ _).mp h
  obtain ⟨_, -, h⟩ := (Res.bind_eq_ok _ _ _).mp h
  obtain ⟨_, -, h⟩ := (Res.bind_eq_ok _ _ _).mp h
  obtain ⟨d2, h2, h⟩ := (Res.bind_eq_ok _ _ _).mp h
  obtain ⟨_, -, h⟩ := (Res.bind_eq_ok _ _ _).mp h
  obtain ⟨_, -, h⟩ := (Res.bind_eq_ok _ _ _).mp h
  obtain ⟨d3, h3, h⟩ := (Res.bind_eq_ok _ _ _).mp h
  have a1 := (good_nil (mk := mk) (cd := cd)).set h1 (by decide) (by decide) hl
  have a2 := a1.1.set h2 (by decide) (by decide) (.g2 _)
  have a3 := a2.1.set h3 (by decide) (by decide) (.g2 _)
  exact cpKeyLoop_good _ _ _ h a3

theorem kpKeyBody_good {env : Env G1 G2 GT} {c : Ctx G1 G2 GT} {mpk msk : Key G1 G2 GT} {p : Policy} {tape r : Nat → ZMod q}
    {d : Container G1 G2 GT} (h : kpKeyBody env c mpk msk p tape r = .ok d) (hl : p.compact.length < 2 ^ 31) :
    Writable mk cd d ∧ d ≠ [] := by
  unfold kpKeyBody at h
  obtain ⟨_, -, h⟩ := (Res.bind_eq_ok _ _ _).mp h
  obtain ⟨d1, h1, h⟩ := (Res.bind_eq_ok _ _ _).mp h
  obtain ⟨_, -, h⟩ := (Res.bind_eq_ok _ _ _).mp h
  obtain ⟨_, -, h⟩ := (Res.bind_eq_ok _ _ _).mp h
  obtain ⟨⟨sh, _⟩, -, h⟩ := (Res.bind_eq_ok _ _ _).mp h
  have a1 := (good_nil (mk := mk) (cd := cd)).set h1 (by decide) (by decide) (.bytes _ hl)
  simp only at h
  split at h
  · cases h; exact a1
  · obtain ⟨_, -, h⟩ := (Res.bind_eq_ok _ _ _).mp h
    exact kpKeyLoop_good _ _ _ _ h a1

theorem cpEncBody_good {env : Env G1 G2 GT} {c : Ctx G1 G2 GT} {mpk : Key G1 G2 GT} {p : Policy} {len : Nat} {r : Rand q}
    {ct ct' : Ciphertext G1 G2 GT} {key : Bytes} (h : cpEncBody env c mpk p len r ct = .ok (key, ct'))
    (hg : Writable mk cd ct.comps) (hp : p.compact.length < 2 ^ 31) :
    (Writable mk cd ct'.comps ∧ ct'.comps ≠ []) ∧ ct'.version = ct.version ∧ ct'.uid = ct.uid ∧ ct'.alg = c.alg := by
  unfold cpEncBody at h
  obtain ⟨k, -, h⟩ := (Res.bind_eq_ok _ _ _).mp h
  obtain ⟨u, -, h⟩ := (Res.bind_eq_ok _ _ _).mp h
  obtain ⟨A0, -, h⟩ := (Res.bind_eq_ok _ _ _).mp h
  obtain ⟨A, -, h⟩ := (Res.bind_eq_ok _ _ _).mp h
  obtain ⟨⟨sh, m⟩, -, h⟩ := (Res.bind_eq_ok _ _ _).mp h
  obtain ⟨d, h6, h⟩ := (Res.bind_eq_ok _ _ _).mp h
  obtain ⟨g0, -, h⟩ := (Res.bind_eq_ok _ _ _).mp h
  obtain ⟨g1, -, h⟩ := (Res.bind_eq_ok _ _ _).mp h
  obtain ⟨d1, h9, h⟩ := (Res.bind_eq_ok _ _ _).mp h
  obtain ⟨d2, h10, h⟩ := (Res.bind_eq_ok _ _ _).mp h
  obtain ⟨k', -, h⟩ := (Res.bind_eq_ok _ _ _).mp h
  cases h
  have a1 := hg.set h6 (by decide) (by decide) (.bytes _ hp)
  have a2 := a1.1.set h9 (by decide) (by decide) (.g1 _)
  exact ⟨cpEncLoop_good _ _ _ _ h10 a2, rfl, rfl, rfl⟩

theorem kpEncBody_good {env : Env G1 G2 GT} {c : Ctx G1 G2 GT} {mpk : Key G1 G2 GT} {l : AttrList} {len : Nat} {r : Rand q}
    {ct ct' : Ciphertext G1 G2 GT} {key : Bytes} (h : kpEncBody env c mpk l len r ct = .ok (key, ct'))
    (hg : Writable mk cd ct.comps) (hl : Storable mk cd (.attrs l)) :
    (Writable mk cd ct'.comps ∧ ct'.comps ≠ []) ∧ ct'.version = ct.version ∧ ct'.uid = ct.uid ∧ ct'.alg = c.alg := by
  unfold kpEncBody at h
  obtain ⟨k, -, h⟩ := (Res.bind_eq_ok _ _ _).mp h
  obtain ⟨u, -, h⟩ := (Res.bind_eq_ok _ _ _).mp h
  obtain ⟨A0, -, h⟩ := (Res.bind_eq_ok _ _ _).mp h
  obtain ⟨A, -, h⟩ := (Res.bind_eq_ok _ _ _).mp h
  obtain ⟨g0, -, h⟩ := (Res.bind_eq_ok _ _ _).mp h
  obtain ⟨g1, -, h⟩ := (Res.bind_eq_ok _ _ _).mp h
  obtain ⟨d1, h9, h⟩ := (Res.bind_eq_ok _ _ _).mp h
  obtain ⟨d2, h10, h⟩ := (Res.bind_eq_ok _ _ _).mp h
  obtain ⟨d3, h12, h⟩ := (Res.bind_eq_ok _ _ _).mp h
  obtain ⟨k', -, h⟩ := (Res.bind_eq_ok _ _ _).mp h
  cases h
  have a1 := hg.set h9 (by decide) (by decide) (.g2 _)
  have a2 := kpEncLoop_good _ _ _ h10 a1
  exact ⟨a2.1.set h12 (by decide) (by decide) hl, rfl, rfl, rfl⟩

theorem xor_length {x m y : Bytes} (h : BS.xorAssign x m = .ok y) : y.length = x.length := by
  unfold BS.xorAssign at h
  split at h
  · cases h; rfl
  · split at h
    · cases h; simp
    · cases h

/-- The inputs that encryption copies into the ciphertext can be written. -/
def WritableInput (mk : Mktime) (cd : Codec G1 G2 GT) : FInput → Prop
  | .null => True
  | .policy p => p.compact.length < 2 ^ 31
  | .attrs l => Storable mk cd (.attrs l : Obj G1 G2 GT)

theorem encrypt_good {env : Env G1 G2 GT} {sch : Scheme} {c c' : Ctx G1 G2 GT} {id : Bytes} {input : FInput} {pt : Bytes}
    {r : Rand q} {ct ct' : Ciphertext G1 G2 GT} (h : encrypt env sch c id input pt r ct = .ok (.ok ct', c'))
    (hg : Writable mk cd ct.comps) (hi : WritableInput mk cd input) (hpt : pt.length < 2 ^ 31) :
    (Writable mk cd ct'.comps ∧ ct'.comps ≠ []) ∧ ct'.version = ct.version ∧ ct'.uid = ct.uid ∧ ct'.alg = c.alg := by
  unfold encrypt at h
  obtain ⟨⟨res, c1⟩, h0, h⟩ := (Res.bind_eq_ok _ _ _).mp h
  cases res with
  | error e => cases h
  | ok kc =>
    obtain ⟨K, ct1⟩ := kc
    simp only at h
    obtain ⟨x, hx, h⟩ := (Res.bind_eq_ok _ _ _).mp h
    obtain ⟨d, hd, h⟩ := (Res.bind_eq_ok _ _ _).mp h
    cases h
    have h1 : (Writable mk cd ct1.comps ∧ ct1.comps ≠ []) ∧ ct1.version = ct.version ∧ ct1.uid = ct.uid ∧ ct1.alg = c.alg := by
      unfold encryptKEM at h0
      have key : ∀ {b : Res (Bytes × Ciphertext G1 G2 GT)} {cc : Ctx G1 G2 GT},
          (caught b >>= fun res => Res.ok (res, cc)) = .ok (.ok (K, ct1), c') → b = .ok (K, ct1) := by
        intro b cc hb
        obtain ⟨res, g1, g2⟩ := (Res.bind_eq_ok _ _ _).mp hb
        cases g2
        unfold caught at g1
        split at g1 <;> simp_all
      cases sch <;> cases input <;> simp only [Bool.true_eq_false, if_false, if_true] at h0
      all_goals first
        | (cases h0)
        | skip
      all_goals
        cases hm : (c.ks.getPublicKey id).1 with
        | none => rw [hm] at h0; have := key h0; cases this
        | some mpk =>
          rw [hm] at h0
          have := key h0
          first
          | exact cpEncBody_good this hg hi
          | exact kpEncBody_good this hg hi
    have h2 := h1.1.1.set hd (by decide) (by decide) (.bytes _ (by rw [xor_length hx]; exact hpt))
    exact ⟨h2, h1.2⟩

end good

end Scheme

/-! ## Keys and ciphertexts between contexts -/

namespace Cpa
open Scheme
variable {G1 G2 GT : Type} {mk : Mktime} {cd : Codec G1 G2 GT}

/-- The bytes of the components fit the 32-bit length fields. -/
def Fits (cd : Codec G1 G2 GT) (c : Container G1 G2 GT) : Prop :=
  ∀ b, Container.serialize cd c = .ok b → b.length < 2 ^ 32

theorem alike_of {c d : Container G1 G2 GT} (hk : SMap.keys d = SMap.keys c)
    (h : ∀ k o, SMap.find k c = some o → ∃ o', SMap.find k d = some o' ∧ SameObj o o') : Alike c d := by
  intro n
  cases h1 : SMap.find n c with
  | some o =>
    obtain ⟨o', h2, h3⟩ := h n o h1
    rw [h2]; exact h3
  | none =>
    cases h2 : SMap.find n d with
    | none => trivial
    | some o' =>
      exfalso
      have hm : n ∈ SMap.keys d := List.mem_map_of_mem (SMap.mem_of_find h2)
      rw [hk] at hm
      obtain ⟨p, hp, e⟩ := List.mem_map.mp hm
      have : SMap.find n c ≠ none := by
        clear h2 h hk hm
        induction c with
        | nil => cases hp
        | cons x c ih =>
          obtain ⟨k', v'⟩ := x
          simp only [SMap.find] at h1 ⊢
          split
          · simp
          · rename_i hne
            rw [if_neg hne] at h1
            rcases List.mem_cons.mp hp with rfl | hp
            · exact absurd e.symm hne
            · exact ih h1 hp
      exact this h1

/-- Scheme ids that the importers know (utils/utils.cpp:12-31). -/
def KnownAlg (a : UInt8) : Prop := a ∈ ([0, 60, 70, 71, 72, 100, 101, 102, 201, 202] : List UInt8)

/-- The lookup of a loaded key. -/
def held (c : Ctx G1 G2 GT) (id : Bytes) : KeyKind → Option (Key G1 G2 GT)
  | .pub => (c.ks.getPublicKey id).1
  | .sec => (c.ks.getSecretKey id).1
  | .other => none

/-- Exporting a key and loading it in another context of the same scheme. -/
theorem key_transport (hc : CodecOk cd) {c : Ctx G1 G2 GT} {id : Bytes} {key : Key G1 G2 GT}
    (hk : (c.ks.getKey id).1 = some key) (huid : key.uid.length = uidLen) (hv : key.version = libraryVersion)
    (hid : key.id.length < 2 ^ 31) (ha : KnownAlg key.alg) (hg : Writable mk cd key.comps ∧ key.comps ≠ [])
    (hsize : Fits cd key.comps) :
    ∃ blob c', exportKey cd c id = .ok (.ok blob, c') ∧ c'.ks = (c.ks.getKey id).2 ∧ c'.alg = c.alg ∧
      ∀ (d : Ctx G1 G2 GT) (id' rnd : Bytes) (kind : KeyKind), d.alg = key.alg →
        ∃ d', loadKey mk cd d id' blob rnd kind = .ok (none, d') ∧ d'.ready = true ∧ d'.alg = d.alg ∧
          (kind ≠ .other → ∃ key', held d' id' kind = some key' ∧ Alike key.comps key'.comps) := by
  obtain ⟨out, -, -, -, h1, -⟩ := C42_key_round_trip_partial hc key [] huid hv hid ha hg.1.1 hg.1.2 hg.2 hsize
  refine ⟨out, { c with ks := (c.ks.getKey id).2 }, ?_, rfl, rfl, ?_⟩
  · unfold exportKey
    simp only [hk, h1, caught_ok, Res.ok_bind]
  · intro d id' rnd kind hd
    obtain ⟨out', body, k0, k1, g1, g2, g3, -, g5, -, -, g6, g7⟩ :=
      C42_key_round_trip_partial hc key rnd huid hv hid ha hg.1.1 hg.1.2 hg.2 hsize
    rw [h1] at g1; cases g1
    have hal : k0.alg = key.alg := by
      rw [← g5]
      unfold Key.loadBody at g3
      obtain ⟨_, -, g3⟩ := (Res.bind_eq_ok _ _ _).mp g3
      cases g3; rfl
    refine ⟨⟨d.alg, true, d.ks.addKey id' k1 kind⟩, ?_, rfl, rfl, ?_⟩
    · unfold loadKey
      rw [g2]
      simp only [Res.ok_bind, hal, hd, ne_eq, not_true_eq_false, if_false, g3]
    · intro hne
      refine ⟨k1, ?_, alike_of g6 g7⟩
      cases kind with
      | pub => exact pub_addPub _ _ _
      | sec => exact sec_addSec _ _ _
      | other => exact absurd rfl hne

/-- Exporting a ciphertext and loading it into a fresh object. -/
theorem ct_transport (hc : CodecOk cd) {ct : Ciphertext G1 G2 GT} (huid : ct.uid.length = uidLen)
    (hv : ct.version ≤ libraryVersion) (ha : KnownAlg ct.alg) (hg : Writable mk cd ct.comps ∧ ct.comps ≠ [])
    (hsize : Fits cd ct.comps) :
    ∃ out ct', ct.exportBytes cd = .ok out ∧ Ciphertext.load mk cd {} out = .ok ct' ∧ Alike ct.comps ct'.comps := by
  obtain ⟨out, ct', h1, h2, -, -, -, h3, h4⟩ := C41_ciphertext_round_trip_partial hc ct huid hv ha hg.1.1 hg.1.2 hg.2 hsize
  exact ⟨out, ct', h1, h2, alike_of h3 h4⟩

end Cpa
end Abe
