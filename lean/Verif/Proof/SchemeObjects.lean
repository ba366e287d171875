import Verif.Model.SchemeObjects
import Verif.Proof.Maps
/-!
# The schemes on objects compute what the schemes on values compute
-/
set_option linter.unusedSimpArgs false
set_option linter.unusedSectionVars false
set_option autoImplicit false
namespace Abe
namespace Live
open Scheme
variable {G1 G2 GT : Type}

/-! ## Containers that answer alike -/

/-- A name holds a null pointer. -/
def HasNull (a : Container G1 G2 GT) : Prop := ∃ n, SMap.find n a = some .null

/-- The same components under the same names, and nothing else except null pointers. -/
structure CompsLike (a b : Container G1 G2 GT) : Prop where
  get : ∀ n, (Container.getComponent a n).1 = (Container.getComponent b n).1
  eq_or : a = b ∨ HasNull a

theorem CompsLike.refl (a : Container G1 G2 GT) : CompsLike a a := ⟨fun _ => rfl, .inl rfl⟩
theorem CompsLike.trans {a b c : Container G1 G2 GT} (h : CompsLike a b) (h' : CompsLike b c) : CompsLike a c :=
  ⟨fun n => (h.get n).trans (h'.get n), by
    rcases h.eq_or with rfl | h
    · exact h'.eq_or
    · exact .inr h⟩

theorem getComponent_like (a : Container G1 G2 GT) (n : Bytes) : CompsLike (Container.getComponent a n).2 a := by
  refine ⟨fun m => ?_, ?_⟩
  · unfold Container.getComponent
    cases h : SMap.find n a with
    | none =>
      simp only [SMap.find_insert]
      by_cases e : m = n
      · subst e; simp [h]
      · simp only [e, if_false]
        cases SMap.find m a with
        | none => rfl
        | some o => cases o <;> rfl
    | some o => cases o <;> rfl
  · unfold Container.getComponent
    cases h : SMap.find n a with
    | none => exact .inr ⟨n, by simp [SMap.find_insert]⟩
    | some o => cases o <;> exact .inl rfl

/-- A lookup changes the container only if it fails. -/
theorem getComponent_same (a : Container G1 G2 GT) (n : Bytes) :
    (Container.getComponent a n).2 = a ∨ (Container.getComponent a n).1 = .throw .elementNotFound := by
  unfold Container.getComponent
  cases h : SMap.find n a with
  | none => exact .inr rfl
  | some o => cases o <;> simp

/-! ## Simulation of computations -/

/-- On all objects like `s'` the computation gives `r`, leaves objects like `s'`, and leaves them unchanged unless a
lookup failed. -/
def Sim {α : Type} (s' : Two G1 G2 GT) (m : Mut (Two G1 G2 GT) α) (r : Res α) : Prop :=
  ∀ s : Two G1 G2 GT, CompsLike s.1 s'.1 → CompsLike s.2 s'.2 →
    (m s).1 = r ∧ CompsLike (m s).2.1 s'.1 ∧ CompsLike (m s).2.2 s'.2 ∧ ((m s).2 = s ∨ r = .throw .elementNotFound)

variable {α β : Type} {s' : Two G1 G2 GT}

theorem sim_lift (r : Res α) : Sim s' (lift r) r := fun _ h1 h2 => ⟨rfl, h1, h2, .inl rfl⟩

theorem sim_fst (n : Bytes) : Sim s' (fst n) (Container.getComponent s'.1 n).1 := by
  intro s h1 h2
  refine ⟨h1.get n, (getComponent_like s.1 n).trans h1, h2, ?_⟩
  rcases getComponent_same s.1 n with h | h
  · exact .inl (Prod.ext h rfl)
  · exact .inr ((h1.get n).symm.trans h)

theorem sim_snd (n : Bytes) : Sim s' (snd n) (Container.getComponent s'.2 n).1 := by
  intro s h1 h2
  refine ⟨h2.get n, h1, (getComponent_like s.2 n).trans h2, ?_⟩
  rcases getComponent_same s.2 n with h | h
  · exact .inl (Prod.ext rfl h)
  · exact .inr ((h2.get n).symm.trans h)

theorem Sim.bind {m : Mut (Two G1 G2 GT) α} {r : Res α} {g : α → Mut (Two G1 G2 GT) β} {f : α → Res β}
    (h : Sim s' m r) (h' : ∀ x, Sim s' (g x) (f x)) : Sim s' (m >>= g) (r >>= f) := by
  intro s h1 h2
  obtain ⟨e, k1, k2, k3⟩ := h s h1 h2
  have hb : (m >>= g) s = Mut.bind m g s := rfl
  rw [hb]
  unfold Mut.bind
  generalize m s = y at *
  obtain ⟨v, t⟩ := y
  simp only at e k1 k2 k3
  subst e
  cases v with
  | ok x =>
    have ht : t = s := by
      rcases k3 with k3 | k3
      · exact k3
      · exact absurd k3 (by simp)
    subst ht
    exact h' x t h1 h2
  | throw er => exact ⟨rfl, k1, k2, k3.imp id fun k => by simpa using k⟩
  | ub => exact ⟨rfl, k1, k2, k3.imp id fun k => by simp at k⟩
  | abort => exact ⟨rfl, k1, k2, k3.imp id fun k => by simp at k⟩

/-! ## The typed accessors -/

theorem getZP_bind (c : Container G1 G2 GT) (n : Bytes) (f : Option Nat → Res β) :
    (getZP c n >>= f) = ((Container.getComponent c n).1 >>= fun o => f (asZP o)) := by
  unfold getZP
  cases (Container.getComponent c n).1 with
  | ok o => cases o <;> rfl
  | _ => rfl

theorem getG1_bind (c : Container G1 G2 GT) (n : Bytes) (f : Option G1 → Res β) :
    (getG1 c n >>= f) = ((Container.getComponent c n).1 >>= fun o => f (asG1 o)) := by
  unfold getG1
  cases (Container.getComponent c n).1 with
  | ok o => cases o <;> rfl
  | _ => rfl

theorem getG2_bind (c : Container G1 G2 GT) (n : Bytes) (f : Option G2 → Res β) :
    (getG2 c n >>= f) = ((Container.getComponent c n).1 >>= fun o => f (asG2 o)) := by
  unfold getG2
  cases (Container.getComponent c n).1 with
  | ok o => cases o <;> rfl
  | _ => rfl

theorem getGT_bind (c : Container G1 G2 GT) (n : Bytes) (f : Option GT → Res β) :
    (getGT c n >>= f) = ((Container.getComponent c n).1 >>= fun o => f (asGT o)) := by
  unfold getGT
  cases (Container.getComponent c n).1 with
  | ok o => cases o <;> rfl
  | _ => rfl

theorem getBytes_bind (c : Container G1 G2 GT) (n : Bytes) (f : Option Bytes → Res β) :
    (getBytes c n >>= f) = ((Container.getComponent c n).1 >>= fun o => f (asBytes o)) := by
  unfold getBytes
  cases (Container.getComponent c n).1 with
  | ok o => cases o <;> rfl
  | _ => rfl

/-! ## The bodies -/

variable {q : Nat} [Fact q.Prime]
variable [AddCommGroup G1] [Module (ZMod q) G1] [AddCommGroup G2] [Module (ZMod q) G2] [AddCommGroup GT]
  [Module (ZMod q) GT]

theorem sim_cpKeyBody (env : Env G1 G2 GT) (c : Ctx G1 G2 GT) (mpk msk : Key G1 G2 GT) (l : AttrList) (t : ZMod q) :
    Sim (mpk.comps, msk.comps) (cpKeyBody env c l t) (Scheme.cpKeyBody env c mpk msk l t) := by
  unfold cpKeyBody Scheme.cpKeyBody
  simp only [getZP_bind, getG1_bind, getG2_bind, getGT_bind, getBytes_bind]
  refine (sim_fst _).bind fun k => (sim_lift _).bind fun d => (sim_lift _).bind fun _ => (sim_snd _).bind fun a =>
    (sim_lift _).bind fun _ => (sim_fst _).bind fun _ => (sim_lift _).bind fun _ => (sim_snd _).bind fun _ =>
    (sim_lift _).bind fun _ => (sim_lift _).bind fun _ => (sim_fst _).bind fun _ => (sim_lift _).bind fun _ =>
    (sim_lift _).bind fun _ => sim_lift _

theorem sim_kpKeyLoop (env : Env G1 G2 GT) (mpk : Key G1 G2 GT) (b : Container G1 G2 GT) (k : Option Bytes)
    (r : Nat → ZMod q) : ∀ (rows : List (Bytes × (Bytes × ZMod q))) (i : Nat) (d : Container G1 G2 GT),
      Sim (mpk.comps, b) (kpKeyLoop env k r i rows d) (Scheme.kpKeyLoop env mpk k r i rows d)
  | [], i, d => sim_lift _
  | row :: rows, i, d => by
    unfold kpKeyLoop Scheme.kpKeyLoop
    simp only [getZP_bind, getG1_bind, getG2_bind, getGT_bind, getBytes_bind]
    exact (sim_fst _).bind fun _ => (sim_lift _).bind fun _ => (sim_lift _).bind fun _ => (sim_fst _).bind fun _ =>
      (sim_lift _).bind fun _ => (sim_lift _).bind fun _ => (sim_lift _).bind fun _ => sim_kpKeyLoop env mpk b k r rows _ _

theorem sim_kpKeyBody (env : Env G1 G2 GT) (c : Ctx G1 G2 GT) (mpk msk : Key G1 G2 GT) (p : Policy) (tape r : Nat → ZMod q) :
    Sim (mpk.comps, msk.comps) (kpKeyBody env c p tape r) (Scheme.kpKeyBody env c mpk msk p tape r) := by
  unfold kpKeyBody Scheme.kpKeyBody
  simp only [getZP_bind, getG1_bind, getG2_bind, getGT_bind, getBytes_bind]
  refine (sim_fst _).bind fun k => (sim_lift _).bind fun d => (sim_snd _).bind fun _ => (sim_lift _).bind fun _ =>
    (sim_lift _).bind fun x => ?_
  obtain ⟨sh, _⟩ := x
  simp only
  cases sh.results with
  | nil => exact sim_lift _
  | cons row rows => exact (sim_lift _).bind fun _ => sim_kpKeyLoop env mpk _ _ r _ _ _

theorem sim_cpEncLoop (env : Env G1 G2 GT) (mpk : Key G1 G2 GT) (b : Container G1 G2 GT) (k : Option Bytes)
    (r : Nat → ZMod q) : ∀ (rows : List (Bytes × (Bytes × ZMod q))) (i : Nat) (d : Container G1 G2 GT),
      Sim (mpk.comps, b) (cpEncLoop env k r i rows d) (Scheme.cpEncLoop env mpk k r i rows d)
  | [], i, d => sim_lift _
  | row :: rows, i, d => by
    unfold cpEncLoop Scheme.cpEncLoop
    simp only [getZP_bind, getG1_bind, getG2_bind, getGT_bind, getBytes_bind]
    exact (sim_fst _).bind fun _ => (sim_lift _).bind fun _ => (sim_lift _).bind fun _ => (sim_lift _).bind fun _ =>
      (sim_fst _).bind fun _ => (sim_lift _).bind fun _ => (sim_lift _).bind fun _ => sim_cpEncLoop env mpk b k r rows _ _

theorem sim_cpEncBody (env : Env G1 G2 GT) (c : Ctx G1 G2 GT) (mpk : Key G1 G2 GT) (b : Container G1 G2 GT) (p : Policy)
    (len : Nat) (r : Rand q) (ct : Ciphertext G1 G2 GT) :
    Sim (mpk.comps, b) (cpEncBody env c p len r ct) (Scheme.cpEncBody env c mpk p len r ct) := by
  unfold cpEncBody Scheme.cpEncBody
  simp only [getZP_bind, getG1_bind, getG2_bind, getGT_bind, getBytes_bind]
  exact (sim_fst _).bind fun k => (sim_lift _).bind fun _ => (sim_fst _).bind fun _ => (sim_lift _).bind fun _ =>
    (sim_lift _).bind fun _ => (sim_lift _).bind fun _ => (sim_fst _).bind fun _ => (sim_lift _).bind fun _ =>
    (sim_lift _).bind fun _ => (sim_cpEncLoop env mpk b _ _ _ _ _).bind fun _ => (sim_lift _).bind fun _ => sim_lift _

theorem sim_kpEncBody (env : Env G1 G2 GT) (c : Ctx G1 G2 GT) (mpk : Key G1 G2 GT) (b : Container G1 G2 GT) (l : AttrList)
    (len : Nat) (r : Rand q) (ct : Ciphertext G1 G2 GT) :
    Sim (mpk.comps, b) (kpEncBody env c l len r ct) (Scheme.kpEncBody env c mpk l len r ct) := by
  unfold kpEncBody Scheme.kpEncBody
  simp only [getZP_bind, getG1_bind, getG2_bind, getGT_bind, getBytes_bind]
  exact (sim_fst _).bind fun k => (sim_lift _).bind fun _ => (sim_fst _).bind fun _ => (sim_lift _).bind fun _ =>
    (sim_fst _).bind fun _ => (sim_lift _).bind fun _ => (sim_lift _).bind fun _ => (sim_lift _).bind fun _ =>
    (sim_lift _).bind fun _ => (sim_lift _).bind fun _ => sim_lift _

theorem sim_cpDecLoop (env : Env G1 G2 GT) (key ct : Container G1 G2 GT) :
    ∀ (rows : List (Bytes × (Bytes × ZMod q))) (p : G1) (l : List (G1 × G2)),
      Sim (key, ct) (cpDecLoop env rows p l) (Scheme.cpDecLoop env key ct rows p l)
  | [], p, l => sim_lift _
  | row :: rows, p, l => by
    unfold cpDecLoop Scheme.cpDecLoop
    simp only [getZP_bind, getG1_bind, getG2_bind, getGT_bind, getBytes_bind]
    exact (sim_fst _).bind fun _ => (sim_snd _).bind fun _ => (sim_lift _).bind fun _ => (sim_snd _).bind fun _ =>
      (sim_lift _).bind fun _ => (sim_lift _).bind fun _ => sim_cpDecLoop env key ct rows _ _

theorem sim_kpDecLoop (env : Env G1 G2 GT) (key ct : Container G1 G2 GT) :
    ∀ (rows : List (Bytes × (Bytes × ZMod q))) (p : G1) (l : List (G1 × G2)),
      Sim (key, ct) (kpDecLoop env rows p l) (Scheme.kpDecLoop env key ct rows p l)
  | [], p, l => sim_lift _
  | row :: rows, p, l => by
    unfold kpDecLoop Scheme.kpDecLoop
    simp only [getZP_bind, getG1_bind, getG2_bind, getGT_bind, getBytes_bind]
    exact (sim_snd _).bind fun _ => (sim_fst _).bind fun _ => (sim_fst _).bind fun _ => (sim_lift _).bind fun _ =>
      (sim_lift _).bind fun _ => (sim_lift _).bind fun _ => sim_kpDecLoop env key ct rows _ _

theorem sim_cpDecBody (env : Env G1 G2 GT) (c : Ctx G1 G2 GT) (key ct : Container G1 G2 GT) (len : Nat) :
    Sim (key, ct) (cpDecBody q env c len) (Scheme.cpDecBody q env c key ct len) := by
  unfold cpDecBody Scheme.cpDecBody
  simp only [getZP_bind, getG1_bind, getG2_bind, getGT_bind, getBytes_bind]
  refine (sim_fst _).bind fun _ => (sim_snd _).bind fun _ => (sim_lift _).bind fun _ => (sim_lift _).bind fun _ =>
    (sim_lift _).bind fun _ => (sim_lift _).bind fun x => ?_
  obtain ⟨good, o, p⟩ := x
  simp only
  split
  · exact sim_lift _
  · exact (sim_cpDecLoop env key ct _ _ _).bind fun _ => (sim_lift _).bind fun _ => (sim_lift _).bind fun _ =>
      (sim_snd _).bind fun _ => (sim_fst _).bind fun _ => (sim_fst _).bind fun _ => (sim_lift _).bind fun _ =>
      (sim_lift _).bind fun _ => (sim_lift _).bind fun _ => sim_lift _

theorem sim_kpDecBody (env : Env G1 G2 GT) (c : Ctx G1 G2 GT) (key ct : Container G1 G2 GT) (len : Nat) :
    Sim (key, ct) (kpDecBody q env c len) (Scheme.kpDecBody q env c key ct len) := by
  unfold kpDecBody Scheme.kpDecBody
  simp only [getZP_bind, getG1_bind, getG2_bind, getGT_bind, getBytes_bind]
  refine (sim_fst _).bind fun _ => (sim_lift _).bind fun _ => (sim_lift _).bind fun _ => (sim_snd _).bind fun _ =>
    (sim_lift _).bind fun _ => (sim_lift _).bind fun x => ?_
  obtain ⟨good, o, p⟩ := x
  simp only
  split
  · exact sim_lift _
  · exact (sim_kpDecLoop env key ct _ _ _).bind fun _ => (sim_lift _).bind fun _ => (sim_lift _).bind fun _ =>
      (sim_snd _).bind fun _ => (sim_lift _).bind fun _ => sim_lift _

/-! ## Contexts that answer alike -/

/-- Two keys with the same header and the same components. -/
structure KeyLike (k k' : Key G1 G2 GT) : Prop where
  version : k.version = k'.version
  alg : k.alg = k'.alg
  uid : k.uid = k'.uid
  id : k.id = k'.id
  comps : CompsLike k.comps k'.comps

theorem KeyLike.refl (k : Key G1 G2 GT) : KeyLike k k := ⟨rfl, rfl, rfl, rfl, .refl _⟩

/-- The same for what a map entry holds: a pointer, null or a key. -/
inductive HeldLike : Option (Key G1 G2 GT) → Option (Key G1 G2 GT) → Prop
  | null : HeldLike none none
  | key {k k' : Key G1 G2 GT} (h : KeyLike k k') : HeldLike (some k) (some k')

theorem HeldLike.refl : ∀ k : Option (Key G1 G2 GT), HeldLike k k
  | none => .null
  | some k => .key (.refl k)

/-- The same for the entries of a map, which may be missing. -/
inductive EntryLike : Option (Option (Key G1 G2 GT)) → Option (Option (Key G1 G2 GT)) → Prop
  | none : EntryLike none none
  | entry {k k' : Option (Key G1 G2 GT)} (h : HeldLike k k') : EntryLike (some k) (some k')

/-- Two maps of keys with the same entries. -/
def MapLike (m m' : SMap (Option (Key G1 G2 GT))) : Prop := ∀ id, EntryLike (SMap.find id m) (SMap.find id m')

theorem MapLike.refl (m : SMap (Option (Key G1 G2 GT))) : MapLike m m := fun id => by
  cases SMap.find id m with
  | none => exact .none
  | some k => exact .entry (.refl k)

variable {m m' : SMap (Option (Key G1 G2 GT))}

theorem MapLike.insert (h : MapLike m m') (id : Bytes) {v v' : Option (Key G1 G2 GT)} (hv : HeldLike v v') :
    MapLike (SMap.insert id v m) (SMap.insert id v' m') := by
  intro j
  simp only [SMap.find_insert]
  split
  · exact .entry hv
  · exact h j

theorem MapLike.erase (h : MapLike m m') (id : Bytes) : MapLike (SMap.erase id m) (SMap.erase id m') := by
  intro j
  simp only [SMap.find_erase]
  split
  · exact .none
  · exact h j

theorem MapLike.touch (h : MapLike m m') (id : Bytes) :
    HeldLike (KeyStore.touch m id).1 (KeyStore.touch m' id).1 ∧ MapLike (KeyStore.touch m id).2 (KeyStore.touch m' id).2 := by
  have := h id
  unfold KeyStore.touch
  revert this
  cases SMap.find id m <;> cases SMap.find id m' <;> intro hh <;> cases hh
  · exact ⟨.null, h.insert id .null⟩
  · exact ⟨by assumption, h⟩

/-- Two stores with the same keys. -/
structure StoreLike (k k' : KeyStore (Key G1 G2 GT)) : Prop where
  pub : MapLike k.pub k'.pub
  sec : MapLike k.sec k'.sec

/-- Two contexts that differ at most in null entries of the components of their keys. -/
structure CtxLike (c c' : Ctx G1 G2 GT) : Prop where
  alg : c.alg = c'.alg
  ready : c.ready = c'.ready
  ks : StoreLike c.ks c'.ks

theorem StoreLike.refl (k : KeyStore (Key G1 G2 GT)) : StoreLike k k := ⟨.refl _, .refl _⟩
theorem CtxLike.refl (c : Ctx G1 G2 GT) : CtxLike c c := ⟨rfl, rfl, .refl _⟩

variable {k k' : KeyStore (Key G1 G2 GT)}

theorem StoreLike.getPublicKey (h : StoreLike k k') (id : Bytes) :
    HeldLike (k.getPublicKey id).1 (k'.getPublicKey id).1 ∧ StoreLike (k.getPublicKey id).2 (k'.getPublicKey id).2 :=
  ⟨(h.pub.touch id).1, (h.pub.touch id).2, h.sec⟩

theorem StoreLike.getSecretKey (h : StoreLike k k') (id : Bytes) :
    HeldLike (k.getSecretKey id).1 (k'.getSecretKey id).1 ∧ StoreLike (k.getSecretKey id).2 (k'.getSecretKey id).2 :=
  ⟨(h.sec.touch id).1, h.pub, (h.sec.touch id).2⟩

theorem StoreLike.getKey (h : StoreLike k k') (id : Bytes) :
    HeldLike (k.getKey id).1 (k'.getKey id).1 ∧ StoreLike (k.getKey id).2 (k'.getKey id).2 := by
  unfold KeyStore.getKey
  obtain ⟨h1, h2⟩ := h.getPublicKey id
  revert h1
  cases e : (k.getPublicKey id).1 <;> cases e' : (k'.getPublicKey id).1 <;> intro h1 <;> cases h1
  · simp only [e, e']
    exact h2.getSecretKey id
  · rename_i hk
    simp only [e, e']
    exact ⟨.key hk, h2⟩

theorem StoreLike.addKey (h : StoreLike k k') (id : Bytes) {x x' : Key G1 G2 GT} (hx : KeyLike x x') (kind : KeyKind) :
    StoreLike (k.addKey id x kind) (k'.addKey id x' kind) := by
  cases kind with
  | pub => exact ⟨h.pub.insert id (.key hx), h.sec⟩
  | sec => exact ⟨h.pub, h.sec.insert id (.key hx)⟩
  | other => exact h

theorem isSome_like {x x' : Option (Option (Key G1 G2 GT))} (h : EntryLike x x') : x.isSome = x'.isSome := by cases h <;> rfl

theorem StoreLike.deleteKey (h : StoreLike k k') (id : Bytes) :
    (k.deleteKey id).1 = (k'.deleteKey id).1 ∧ StoreLike (k.deleteKey id).2 (k'.deleteKey id).2 := by
  unfold KeyStore.deleteKey
  obtain ⟨h1, h2⟩ := h.getKey id
  revert h1
  cases e : (k.getKey id).1 <;> cases e' : (k'.getKey id).1 <;> intro h1 <;> cases h1
  · simp only [e, e']
    exact ⟨trivial, h2⟩
  · simp only [e, e', isSome_like (h2.pub id), isSome_like (h2.sec id)]
    split
    · exact ⟨rfl, h2.pub.erase id, h2.sec.erase id⟩
    · exact ⟨rfl, h2.pub.erase id, h2.sec.erase id⟩

theorem StoreLike.validate (h : StoreLike k k') (id : Bytes) :
    (k.validateNewParamsID id).1 = (k'.validateNewParamsID id).1 ∧
      StoreLike (k.validateNewParamsID id).2 (k'.validateNewParamsID id).2 := by
  unfold KeyStore.validateNewParamsID
  obtain ⟨h1, h2⟩ := h.getKey id
  refine ⟨?_, h2⟩
  simp only
  generalize (k.getKey id).1 = x at h1 ⊢
  generalize (k'.getKey id).1 = x' at h1 ⊢
  cases h1 <;> rfl

/-- Writing back components that answer as before. -/
theorem StoreLike.setPub (h : StoreLike k k') {id : Bytes} {d : Container G1 G2 GT} {x' : Key G1 G2 GT}
    (hx : SMap.find id k'.pub = some (some x')) (hd : CompsLike d x'.comps) : StoreLike (setPub k id d) k' := by
  have := h.pub id
  rw [hx] at this
  unfold Live.setPub
  cases e : SMap.find id k.pub with
  | none => exact h
  | some y =>
    rw [e] at this
    cases this with | entry this =>
    cases this with | key hk =>
    refine ⟨fun j => ?_, h.sec⟩
    simp only [SMap.find_insert]
    split
    · rename_i ej; subst ej; rw [hx]
      exact .entry (.key ⟨hk.version, hk.alg, hk.uid, hk.id, hd⟩)
    · exact h.pub j

theorem StoreLike.setSec (h : StoreLike k k') {id : Bytes} {d : Container G1 G2 GT} {x' : Key G1 G2 GT}
    (hx : SMap.find id k'.sec = some (some x')) (hd : CompsLike d x'.comps) : StoreLike (setSec k id d) k' := by
  have := h.sec id
  rw [hx] at this
  unfold Live.setSec
  cases e : SMap.find id k.sec with
  | none => exact h
  | some y =>
    rw [e] at this
    cases this with | entry this =>
    cases this with | key hk =>
    refine ⟨h.pub, fun j => ?_⟩
    simp only [SMap.find_insert]
    split
    · rename_i ej; subst ej; rw [hx]
      exact .entry (.key ⟨hk.version, hk.alg, hk.uid, hk.id, hd⟩)
    · exact h.sec j

theorem find_of_touch {m : SMap (Option (Key G1 G2 GT))} {id : Bytes} {x : Key G1 G2 GT}
    (h : (KeyStore.touch m id).1 = some x) : SMap.find id m = some (some x) ∧ (KeyStore.touch m id).2 = m := by
  unfold KeyStore.touch at *
  cases e : SMap.find id m with
  | none => rw [e] at h; simp at h
  | some v => rw [e] at h; simp only at h; subst h; exact ⟨rfl, by simp⟩

theorem find_of_pub {k : KeyStore (Key G1 G2 GT)} {id : Bytes} {x : Key G1 G2 GT} (h : (k.getPublicKey id).1 = some x) :
    SMap.find id k.pub = some (some x) ∧ (k.getPublicKey id).2 = k := by
  have := find_of_touch (m := k.pub) (id := id) h
  exact ⟨this.1, by unfold KeyStore.getPublicKey; simp only [this.2]⟩

theorem find_of_sec {k : KeyStore (Key G1 G2 GT)} {id : Bytes} {x : Key G1 G2 GT} (h : (k.getSecretKey id).1 = some x) :
    SMap.find id k.sec = some (some x) ∧ (k.getSecretKey id).2 = k := by
  have := find_of_touch (m := k.sec) (id := id) h
  exact ⟨this.1, by unfold KeyStore.getSecretKey; simp only [this.2]⟩

/-! ## The operations -/

variable {c c' : Ctx G1 G2 GT}

theorem cpKeyBody_ready (env : Env G1 G2 GT) (h : c.ready = c'.ready) (mpk msk : Key G1 G2 GT) (l : AttrList) (t : ZMod q) :
    Scheme.cpKeyBody env c mpk msk l t = Scheme.cpKeyBody env c' mpk msk l t := by
  unfold Scheme.cpKeyBody usePairing; rw [h]

theorem kpKeyBody_ready (env : Env G1 G2 GT) (h : c.ready = c'.ready) (mpk msk : Key G1 G2 GT) (p : Policy)
    (tape r : Nat → ZMod q) : Scheme.kpKeyBody env c mpk msk p tape r = Scheme.kpKeyBody env c' mpk msk p tape r := by
  unfold Scheme.kpKeyBody usePairing; rw [h]

theorem cpEncBody_ready (env : Env G1 G2 GT) (h : c.ready = c'.ready) (ha : c.alg = c'.alg) (mpk : Key G1 G2 GT) (p : Policy)
    (len : Nat) (r : Rand q) (ct : Ciphertext G1 G2 GT) :
    Scheme.cpEncBody env c mpk p len r ct = Scheme.cpEncBody env c' mpk p len r ct := by
  unfold Scheme.cpEncBody usePairing; rw [h, ha]

theorem kpEncBody_ready (env : Env G1 G2 GT) (h : c.ready = c'.ready) (ha : c.alg = c'.alg) (mpk : Key G1 G2 GT)
    (l : AttrList) (len : Nat) (r : Rand q) (ct : Ciphertext G1 G2 GT) :
    Scheme.kpEncBody env c mpk l len r ct = Scheme.kpEncBody env c' mpk l len r ct := by
  unfold Scheme.kpEncBody usePairing; rw [h, ha]

theorem cpDecBody_ready (env : Env G1 G2 GT) (h : c.ready = c'.ready) (k ct : Container G1 G2 GT) (len : Nat) :
    Scheme.cpDecBody q env c k ct len = Scheme.cpDecBody q env c' k ct len := by
  unfold Scheme.cpDecBody usePairing; rw [h]

theorem kpDecBody_ready (env : Env G1 G2 GT) (h : c.ready = c'.ready) (k ct : Container G1 G2 GT) (len : Nat) :
    Scheme.kpDecBody q env c k ct len = Scheme.kpDecBody q env c' k ct len := by
  unfold Scheme.kpDecBody usePairing; rw [h]

/-- The key that a call of key generation computes from the two master keys. -/
def keyOf (env : Env G1 G2 GT) (sch : Scheme) (c : Ctx G1 G2 GT) (input : FInput) (r : Rand q) (mpk msk : Key G1 G2 GT) :
    Res (Container G1 G2 GT) :=
  match sch, input with
  | .cp, .attrs l => Scheme.cpKeyBody env c mpk msk l r.x
  | .kp, .policy p => Scheme.kpKeyBody env c mpk msk p r.tape r.r
  | _, _ => .throw .invalidInput

theorem sim_keyOf (env : Env G1 G2 GT) (sch : Scheme) (input : FInput) (r : Rand q) (mpk msk : Key G1 G2 GT)
    (h : c.ready = c'.ready) :
    Sim (mpk.comps, msk.comps) (keyBody env sch c input r) (keyOf env sch c' input r mpk msk) := by
  unfold keyOf keyBody
  cases sch <;> cases input <;> simp only
  · exact sim_lift _
  · rw [← cpKeyBody_ready env h]; exact sim_cpKeyBody env c mpk msk _ _
  · exact sim_lift _
  · exact sim_lift _
  · exact sim_lift _
  · rw [← kpKeyBody_ready env h]; exact sim_kpKeyBody env c mpk msk _ _ _

/-- The key and ciphertext that encapsulation computes. -/
def encOf (env : Env G1 G2 GT) (sch : Scheme) (c : Ctx G1 G2 GT) (input : FInput) (r : Rand q) (ct : Ciphertext G1 G2 GT)
    (mpk : Key G1 G2 GT) : Res (Bytes × Ciphertext G1 G2 GT) :=
  match sch, input with
  | .cp, .policy p => Scheme.cpEncBody env c mpk p symKeyBytes r ct
  | .kp, .attrs l => Scheme.kpEncBody env c mpk l symKeyBytes r ct
  | _, _ => .throw .invalidInput

theorem sim_encOf (env : Env G1 G2 GT) (sch : Scheme) (input : FInput) (r : Rand q) (ct : Ciphertext G1 G2 GT)
    (mpk : Key G1 G2 GT) (h : c.ready = c'.ready) (ha : c.alg = c'.alg) :
    Sim (mpk.comps, []) (encBody env sch c input r ct) (encOf env sch c' input r ct mpk) := by
  unfold encOf encBody
  cases sch <;> cases input <;> simp only
  · exact sim_lift _
  · exact sim_lift _
  · rw [← cpEncBody_ready env h ha]; exact sim_cpEncBody env c mpk _ _ _ _ _
  · exact sim_lift _
  · rw [← kpEncBody_ready env h ha]; exact sim_kpEncBody env c mpk _ _ _ _ _
  · exact sim_lift _

/-- The plaintext that decryption computes. -/
def plainOf (q : Nat) [Fact q.Prime] [Module (ZMod q) G1] (env : Env G1 G2 GT) (sch : Scheme) (c : Ctx G1 G2 GT)
    (k ct : Container G1 G2 GT) : Res Bytes := do
  let K ← match sch with
    | .cp => Scheme.cpDecBody q env c k ct symKeyBytes
    | .kp => Scheme.kpDecBody q env c k ct symKeyBytes
  let enc ← notNull (← getBytes ct b!"_ED")
  BS.xorAssign enc (hashFromBytes env.md K enc.length schemeHashPrefix)

theorem sim_plainOf (env : Env G1 G2 GT) (sch : Scheme) (k ct : Container G1 G2 GT) (h : c.ready = c'.ready) :
    Sim (k, ct) (plainBody q env sch c) (plainOf q env sch c' k ct) := by
  unfold plainOf plainBody
  simp only [getBytes_bind]
  cases sch <;> simp only <;>
    refine Sim.bind ?_ fun K => (sim_snd _).bind fun _ => (sim_lift _).bind fun _ => sim_lift _
  · rw [← cpDecBody_ready env h]; exact sim_cpDecBody env c k ct _
  · rw [← kpDecBody_ready env h]; exact sim_kpDecBody env c k ct _

/-- A call on objects did what the call on values did; `c0` is the context after an error that nobody caught. -/
def Agree {α : Type} (o : Res α × Ctx G1 G2 GT) (c0 : Ctx G1 G2 GT) : Res (α × Ctx G1 G2 GT) → Prop
  | .ok x => o.1 = .ok x.1 ∧ CtxLike o.2 x.2
  | .throw e => o.1 = .throw e ∧ CtxLike o.2 c0
  | .ub => o.1 = .ub ∧ CtxLike o.2 c0
  | .abort => o.1 = .abort ∧ CtxLike o.2 c0

theorem caught_cases {α : Type} (r : Res α) :
    (∃ a, r = .ok a ∧ caught r = .ok (.ok a)) ∨ (∃ e, r = .throw e ∧ caught r = .ok (.error e)) ∨
      (∃ e, r = .throw e ∧ (e = .outOfRange ∨ e = .runtimeError) ∧ caught r = .throw e) ∨
      (r = .ub ∧ caught r = .ub) ∨ (r = .abort ∧ caught r = .abort) := by
  cases r with
  | ok a => exact .inl ⟨a, rfl, rfl⟩
  | throw e => cases e <;> first
      | exact .inr (.inl ⟨_, rfl, rfl⟩)
      | exact .inr (.inr (.inl ⟨_, rfl, .inl rfl, rfl⟩))
      | exact .inr (.inr (.inl ⟨_, rfl, .inr rfl, rfl⟩))
  | ub => exact .inr (.inr (.inr (.inl ⟨rfl, rfl⟩)))
  | abort => exact .inr (.inr (.inr (.inr ⟨rfl, rfl⟩)))

theorem generateKey_good (env : Env G1 G2 GT) (sch : Scheme) (input : FInput) (keyID mpkID mskID : Bytes) (r : Rand q)
    (hg : (sch = .cp ∧ ∃ l, input = .attrs l) ∨ (sch = .kp ∧ ∃ p, input = .policy p)) (c : Ctx G1 G2 GT) :
    Scheme.generateKey env sch c input keyID mpkID mskID r = (do
      let pk := c.ks.getPublicKey mpkID
      let sk := pk.2.getSecretKey mskID
      match pk.1, sk.1 with
      | some mpk, some msk =>
        match ← caught (keyOf env sch c input r mpk msk) with
        | .error e => .ok (some e, { c with ks := sk.2 })
        | .ok comps => .ok (none, { c with ks := sk.2.addKey keyID (newKey c.alg keyID r.uid comps) .sec })
      | _, _ => .ok (some .invalidParams, { c with ks := sk.2 })) := by
  unfold Scheme.generateKey keyOf
  rcases hg with ⟨rfl, l, rfl⟩ | ⟨rfl, p, rfl⟩
  all_goals
    simp only [reduceCtorEq, if_false]
    cases (c.ks.getPublicKey mpkID).1 with
    | none => rfl
    | some mpk =>
      cases ((c.ks.getPublicKey mpkID).2.getSecretKey mskID).1 with
      | none => rfl
      | some msk => rfl

theorem generateKey_agree (env : Env G1 G2 GT) (sch : Scheme) (input : FInput) (keyID mpkID mskID : Bytes) (r : Rand q)
    (h : CtxLike c c') : Agree (generateKey env sch c input keyID mpkID mskID r) c'
      (Scheme.generateKey env sch c' input keyID mpkID mskID r) := by
  by_cases hg : (sch = .cp ∧ ∃ l, input = .attrs l) ∨ (sch = .kp ∧ ∃ p, input = .policy p)
  · rw [generateKey_good env sch input keyID mpkID mskID r hg]
    have hl : generateKey env sch c input keyID mpkID mskID r = (
        let pk := c.ks.getPublicKey mpkID
        let sk := pk.2.getSecretKey mskID
        match pk.1, sk.1 with
        | some mpk, some msk =>
          let out := keyBody env sch c input r (mpk.comps, msk.comps)
          let ks := setSec (setPub sk.2 mpkID out.2.1) mskID out.2.2
          match caught out.1 with
          | .ok (.error e) => (.ok (some e), { c with ks := ks })
          | .ok (.ok comps) => (.ok none, { c with ks := ks.addKey keyID (newKey c.alg keyID r.uid comps) .sec })
          | .throw e => (.throw e, { c with ks := ks })
          | .ub => (.ub, { c with ks := ks })
          | .abort => (.abort, { c with ks := ks })
        | _, _ => (.ok (some .invalidParams), { c with ks := sk.2 })) := by
      unfold generateKey
      rcases hg with ⟨rfl, l, rfl⟩ | ⟨rfl, p, rfl⟩ <;> rfl
    rw [hl]
    clear hl
    obtain ⟨p1, p2⟩ := h.ks.getPublicKey mpkID
    obtain ⟨s1, s2⟩ := p2.getSecretKey mskID
    simp only
    generalize ep : (c.ks.getPublicKey mpkID).1 = x at *
    generalize ep' : (c'.ks.getPublicKey mpkID).1 = x' at *
    generalize es : ((c.ks.getPublicKey mpkID).2.getSecretKey mskID).1 = y at *
    generalize es' : ((c'.ks.getPublicKey mpkID).2.getSecretKey mskID).1 = y' at *
    cases p1 with
    | null => exact ⟨rfl, h.alg, h.ready, s2⟩
    | key hp =>
      rename_i mpk mpk'
      cases s1 with
      | null => exact ⟨rfl, h.alg, h.ready, s2⟩
      | key hs =>
        rename_i msk msk'
        have fp := find_of_pub ep'
        have fs := find_of_sec es'
        obtain ⟨e1, e2, e3, -⟩ := sim_keyOf env sch input r mpk' msk' h.ready (mpk.comps, msk.comps) hp.comps hs.comps
        simp only
        generalize keyBody env sch c input r (mpk.comps, msk.comps) = out at *
        have hk : StoreLike (setSec (setPub ((c.ks.getPublicKey mpkID).2.getSecretKey mskID).2 mpkID out.2.1) mskID out.2.2) c'.ks := by
          rw [fs.2] at s2
          rw [fp.2] at s2 fs
          exact (s2.setPub fp.1 e2).setSec fs.1 e3
        have hcc : ((c'.ks.getPublicKey mpkID).2.getSecretKey mskID).2 = c'.ks := by rw [fs.2, fp.2]
        rw [e1]
        rcases caught_cases (keyOf env sch c' input r mpk' msk') with ⟨a, e, k⟩ | ⟨e, e', k⟩ | ⟨e, e', _, k⟩ | ⟨e, k⟩ | ⟨e, k⟩ <;>
          rw [k]
        · refine ⟨rfl, h.alg, h.ready, ?_⟩
          simp only [hcc]
          rw [h.alg]
          exact hk.addKey keyID (.refl _) .sec
        · exact ⟨rfl, h.alg, h.ready, by simpa only [hcc] using hk⟩
        all_goals exact ⟨rfl, h.alg, h.ready, hk⟩
  · unfold generateKey Scheme.generateKey
    cases sch <;> cases input <;> first
      | exact ⟨rfl, h⟩
      | simp at hg

theorem encrypt_good (env : Env G1 G2 GT) (sch : Scheme) (input : FInput) (mpkID plaintext : Bytes) (r : Rand q)
    (ct : Ciphertext G1 G2 GT)
    (hg : (sch = .kp ∧ ∃ l, input = .attrs l) ∨ (sch = .cp ∧ ∃ p, input = .policy p)) (c : Ctx G1 G2 GT) :
    Scheme.encrypt env sch c mpkID input plaintext r ct = (do
      let pk := c.ks.getPublicKey mpkID
      match pk.1 with
      | some mpk =>
        match ← caught (encOf env sch c input r ct mpk) with
        | .error e => .ok (.error e, { c with ks := pk.2 })
        | .ok (K, ct1) => do
          let x ← BS.xorAssign plaintext (hashFromBytes env.md K plaintext.length schemeHashPrefix)
          let d ← Container.setComponent ct1.comps b!"_ED" (.bytes x)
          .ok (.ok { ct1 with comps := d }, { c with ks := pk.2 })
      | none => .ok (.error .invalidParams, { c with ks := pk.2 })) := by
  unfold Scheme.encrypt Scheme.encryptKEM encOf
  rcases hg with ⟨rfl, l, rfl⟩ | ⟨rfl, p, rfl⟩
  all_goals
    simp only [reduceCtorEq, if_false]
    cases (c.ks.getPublicKey mpkID).1 with
    | none => rfl
    | some mpk =>
      simp only
      generalize caught _ = z
      cases z with
      | ok z => cases z <;> rfl
      | _ => rfl

theorem encrypt_agree (env : Env G1 G2 GT) (sch : Scheme) (input : FInput) (mpkID plaintext : Bytes) (r : Rand q)
    (ct : Ciphertext G1 G2 GT) (h : CtxLike c c') : Agree (encrypt env sch c mpkID input plaintext r ct) c'
      (Scheme.encrypt env sch c' mpkID input plaintext r ct) := by
  by_cases hg : (sch = .kp ∧ ∃ l, input = .attrs l) ∨ (sch = .cp ∧ ∃ p, input = .policy p)
  · rw [encrypt_good env sch input mpkID plaintext r ct hg]
    have hl : encrypt env sch c mpkID input plaintext r ct = (
        let pk := c.ks.getPublicKey mpkID
        match pk.1 with
        | some mpk =>
          let out := encBody env sch c input r ct (mpk.comps, [])
          let c' := { c with ks := setPub pk.2 mpkID out.2.1 }
          match caught out.1 with
          | .ok (.error e) => (.ok (.error e), c')
          | .ok (.ok (K, ct1)) => (do
              let x ← BS.xorAssign plaintext (hashFromBytes env.md K plaintext.length schemeHashPrefix)
              let d ← Container.setComponent ct1.comps b!"_ED" (.bytes x)
              .ok (.ok { ct1 with comps := d }), c')
          | .throw e => (.throw e, c')
          | .ub => (.ub, c')
          | .abort => (.abort, c')
        | none => (.ok (.error .invalidParams), { c with ks := pk.2 })) := by
      unfold encrypt
      rcases hg with ⟨rfl, l, rfl⟩ | ⟨rfl, p, rfl⟩ <;> rfl
    rw [hl]
    clear hl
    obtain ⟨p1, p2⟩ := h.ks.getPublicKey mpkID
    simp only
    generalize ep : (c.ks.getPublicKey mpkID).1 = x at *
    generalize ep' : (c'.ks.getPublicKey mpkID).1 = x' at *
    cases p1 with
    | null => exact ⟨rfl, h.alg, h.ready, p2⟩
    | key hp =>
      rename_i mpk mpk'
      have fp := find_of_pub ep'
      obtain ⟨e1, e2, -, -⟩ := sim_encOf env sch input r ct mpk' h.ready h.alg (mpk.comps, []) hp.comps (.refl _)
      simp only
      generalize encBody env sch c input r ct (mpk.comps, []) = out at *
      have hk : StoreLike (setPub (c.ks.getPublicKey mpkID).2 mpkID out.2.1) c'.ks := by
        rw [fp.2] at p2
        exact p2.setPub fp.1 e2
      rw [e1]
      rcases caught_cases (encOf env sch c' input r ct mpk') with ⟨⟨K, ct1⟩, e, k⟩ | ⟨e, e', k⟩ | ⟨e, e', _, k⟩ | ⟨e, k⟩ | ⟨e, k⟩ <;>
        rw [k]
      · simp only [Res.ok_bind]
        cases BS.xorAssign plaintext (hashFromBytes env.md K plaintext.length schemeHashPrefix) with
        | ok x =>
          simp only [Res.ok_bind]
          cases Container.setComponent ct1.comps b!"_ED" (.bytes x) with
          | ok d => exact ⟨rfl, h.alg, h.ready, by simpa only [fp.2] using hk⟩
          | _ => exact ⟨rfl, h.alg, h.ready, hk⟩
        | _ => exact ⟨rfl, h.alg, h.ready, hk⟩
      · exact ⟨rfl, h.alg, h.ready, by simpa only [fp.2] using hk⟩
      all_goals exact ⟨rfl, h.alg, h.ready, hk⟩
  · unfold encrypt Scheme.encrypt Scheme.encryptKEM
    cases sch <;> cases input <;> first
      | exact ⟨rfl, h⟩
      | simp at hg
theorem decrypt_agree (env : Env G1 G2 GT) (sch : Scheme) (keyID : Bytes) {ct ct' : Ciphertext G1 G2 GT}
    (h : CtxLike c c') (hct : CompsLike ct.comps ct'.comps) :
    Agree ((decrypt q env sch c keyID ct).1, (decrypt q env sch c keyID ct).2.1) c' (do
        let x ← Scheme.decrypt q env sch c' keyID ct'
        .ok ((x.1, x.2.1), x.2.2)) ∧
      CompsLike (decrypt q env sch c keyID ct).2.2.comps ct'.comps := by
  have hv : Scheme.decrypt q env sch c' keyID ct' = (do
      let sk := c'.ks.getSecretKey keyID
      match sk.1 with
      | none => .ok (some .invalidInput, [], { c' with ks := sk.2 })
      | some key =>
        match ← caught (plainOf q env sch c' key.comps ct'.comps) with
        | .error e => .ok (some e, [], { c' with ks := sk.2 })
        | .ok p => .ok (none, p, { c' with ks := sk.2 })) := by
    unfold Scheme.decrypt Scheme.decryptKEM plainOf
    simp only
    cases (c'.ks.getSecretKey keyID).1 with
    | none => rfl
    | some key =>
      cases sch <;> simp only
      · rcases caught_cases (Scheme.cpDecBody q env c' key.comps ct'.comps symKeyBytes) with
          ⟨a, e, k⟩ | ⟨e, e', k⟩ | ⟨e, e', h1, k⟩ | ⟨e, k⟩ | ⟨e, k⟩
        · rw [k, e]; rfl
        · rw [k, e']
          rw [e'] at k
          cases e <;> rfl
        · rw [k, e']
          rcases h1 with rfl | rfl <;> rfl
        · rw [k, e]; rfl
        · rw [k, e]; rfl
      · rcases caught_cases (Scheme.kpDecBody q env c' key.comps ct'.comps symKeyBytes) with
          ⟨a, e, k⟩ | ⟨e, e', k⟩ | ⟨e, e', h1, k⟩ | ⟨e, k⟩ | ⟨e, k⟩
        · rw [k, e]; rfl
        · rw [k, e']
          rw [e'] at k
          cases e <;> rfl
        · rw [k, e']
          rcases h1 with rfl | rfl <;> rfl
        · rw [k, e]; rfl
        · rw [k, e]; rfl
  rw [hv]
  clear hv
  obtain ⟨s1, s2⟩ := h.ks.getSecretKey keyID
  unfold decrypt
  simp only
  generalize es : (c.ks.getSecretKey keyID).1 = y at *
  generalize es' : (c'.ks.getSecretKey keyID).1 = y' at *
  cases s1 with
  | null => exact ⟨⟨rfl, h.alg, h.ready, s2⟩, hct⟩
  | key hs =>
    rename_i key key'
    have fs := find_of_sec es'
    obtain ⟨e1, e2, e3, -⟩ := sim_plainOf (q := q) env sch key'.comps ct'.comps h.ready (key.comps, ct.comps) hs.comps hct
    simp only
    generalize plainBody q env sch c (key.comps, ct.comps) = out at *
    refine ⟨?_, e3⟩
    have hk : StoreLike (setSec (c.ks.getSecretKey keyID).2 keyID out.2.1) c'.ks := by
      rw [fs.2] at s2
      exact s2.setSec fs.1 e2
    rw [e1]
    rcases caught_cases (plainOf q env sch c' key'.comps ct'.comps) with ⟨a, e, k⟩ | ⟨e, e', k⟩ | ⟨e, e', _, k⟩ | ⟨e, k⟩ | ⟨e, k⟩ <;>
      rw [k]
    · exact ⟨rfl, h.alg, h.ready, by simpa only [fs.2] using hk⟩
    · exact ⟨rfl, h.alg, h.ready, by simpa only [fs.2] using hk⟩
    all_goals exact ⟨rfl, h.alg, h.ready, hk⟩

theorem getHashKey_agree (h : CtxLike c c') (mpkID : Bytes) :
    Agree (getHashKey c mpkID) { c' with ks := (c'.ks.getPublicKey mpkID).2 } (Cpa.getHashKey c' mpkID) := by
  obtain ⟨p1, p2⟩ := h.ks.getPublicKey mpkID
  unfold getHashKey Cpa.getHashKey
  simp only
  generalize ep : (c.ks.getPublicKey mpkID).1 = x at *
  generalize ep' : (c'.ks.getPublicKey mpkID).1 = x' at *
  cases p1 with
  | null => exact ⟨rfl, h.alg, h.ready, p2⟩
  | key hp =>
    rename_i mpk mpk'
    have fp := find_of_pub ep'
    have hl : StoreLike (setPub (c.ks.getPublicKey mpkID).2 mpkID (Container.getComponent mpk.comps b!"k").2)
        (c'.ks.getPublicKey mpkID).2 :=
      p2.setPub (by rw [fp.2]; exact fp.1) ((getComponent_like _ _).trans hp.comps)
    simp only [getBytes_bind]
    rw [hp.comps.get]
    cases (Container.getComponent mpk'.comps b!"k").1 with
    | ok o => exact ⟨rfl, h.alg, h.ready, hl⟩
    | throw e => exact ⟨rfl, h.alg, h.ready, hl⟩
    | ub => exact ⟨rfl, h.alg, h.ready, hl⟩
    | abort => exact ⟨rfl, h.alg, h.ready, hl⟩

theorem loadKey_agree (mk : Mktime) (cd : Codec G1 G2 GT) (h : CtxLike c c') (id blob rnd : Bytes) (kind : KeyKind) :
    Agree (loadKey mk cd c id blob rnd kind)
      (match (Key.parseHeader blob rnd : Res (Key G1 G2 GT × Bytes)) with
        | .ok _ => { c' with ready := true }
        | _ => c') (Cpa.loadKey mk cd c' id blob rnd kind) := by
  unfold loadKey Cpa.loadKey
  cases (Key.parseHeader blob rnd : Res (Key G1 G2 GT × Bytes)) with
  | ok x =>
    obtain ⟨k, body⟩ := x
    simp only [Res.ok_bind, h.alg]
    split
    · exact ⟨rfl, rfl, rfl, h.ks⟩
    · cases k.loadBody mk cd body with
      | ok k1 => exact ⟨rfl, rfl, rfl, h.ks.addKey id (.refl k1) kind⟩
      | _ => exact ⟨rfl, rfl, rfl, h.ks⟩
  | _ => exact ⟨rfl, h⟩

/-! ## Exports -/

theorem serialize_cases (cd : Codec G1 G2 GT) : ∀ d : Container G1 G2 GT,
    ((∃ p ∈ d, p.2 = .null) ∧ Container.serialize cd d = .ub) ∨
      ((∀ p ∈ d, p.2 ≠ .null) ∧ ∃ b, Container.serialize cd d = .ok b)
  | [] => .inr ⟨by simp, [], rfl⟩
  | (n, o) :: d => by
    by_cases ho : o = .null
    · subst ho
      exact .inl ⟨⟨_, List.mem_cons_self, rfl⟩, rfl⟩
    · have hb : ∃ b, o.serialize cd = .ok b := by
        cases o <;> first | exact absurd rfl ho | exact ⟨_, rfl⟩
      obtain ⟨b, hb⟩ := hb
      rcases serialize_cases cd d with ⟨⟨p, hp, e⟩, hs⟩ | ⟨hn, r, hs⟩
      · refine .inl ⟨⟨p, List.mem_cons_of_mem _ hp, e⟩, ?_⟩
        unfold Container.serialize
        rw [hb, hs]; rfl
      · refine .inr ⟨?_, ?_⟩
        · intro p hp
          rcases List.mem_cons.1 hp with rfl | hp
          · exact ho
          · exact hn p hp
        · unfold Container.serialize
          rw [hb, hs]; exact ⟨_, rfl⟩

theorem HasNull.mem {d : Container G1 G2 GT} (h : HasNull d) : ∃ p ∈ d, p.2 = .null := by
  obtain ⟨n, h⟩ := h
  exact ⟨_, SMap.mem_of_find h, rfl⟩

theorem exportKey_agree (cd : Codec G1 G2 GT) (h : CtxLike c c') (id : Bytes) :
    CtxLike (exportKey cd c id).2 { c' with ks := (c'.ks.getKey id).2 } ∧
      ((∃ k, (c.ks.getKey id).1 = some k ∧ ∃ p ∈ k.comps, p.2 = .null) → (exportKey cd c id).1 = .ub) ∧
      ((¬ ∃ k, (c.ks.getKey id).1 = some k ∧ ∃ p ∈ k.comps, p.2 = .null) →
        Agree (exportKey cd c id) { c' with ks := (c'.ks.getKey id).2 } (Cpa.exportKey cd c' id)) := by
  obtain ⟨p1, p2⟩ := h.ks.getKey id
  unfold exportKey Cpa.exportKey
  simp only
  generalize (c.ks.getKey id).1 = x at *
  generalize (c'.ks.getKey id).1 = x' at *
  cases p1 with
  | null => exact ⟨⟨h.alg, h.ready, p2⟩, fun ⟨k, e, _⟩ => by simp at e, fun _ => ⟨rfl, h.alg, h.ready, p2⟩⟩
  | key hp =>
    rename_i k k'
    refine ⟨⟨h.alg, h.ready, p2⟩, fun ⟨k1, e, hn⟩ => ?_, fun hn => ?_⟩
    · cases e
      rcases serialize_cases cd k.comps with ⟨_, e⟩ | ⟨hn', _⟩
      · simp only [Key.exportBytes, e]; rfl
      · obtain ⟨p, hp, e⟩ := hn
        exact absurd e (hn' p hp)
    · have hk : k.comps = k'.comps := by
        rcases hp.comps.eq_or with e | e
        · exact e
        · exact absurd ⟨k, rfl, e.mem⟩ hn
      have he : k.exportBytes cd = k'.exportBytes cd := by
        unfold Key.exportBytes Key.header
        rw [hk, hp.version, hp.alg, hp.uid, hp.id]
      simp only [he]
      rcases caught_cases (k'.exportBytes cd) with ⟨a, e, q⟩ | ⟨e, e', q⟩ | ⟨e, e', _, q⟩ | ⟨e, q⟩ | ⟨e, q⟩ <;> rw [q] <;>
        exact ⟨rfl, h.alg, h.ready, p2⟩

/-! ## Programs -/

/-- Two ciphertexts with the same header and the same components. -/
structure CtLike (a b : Ciphertext G1 G2 GT) : Prop where
  version : a.version = b.version
  alg : a.alg = b.alg
  uid : a.uid = b.uid
  comps : CompsLike a.comps b.comps

theorem CtLike.refl (a : Ciphertext G1 G2 GT) : CtLike a a := ⟨rfl, rfl, rfl, .refl _⟩

/-- Two worlds that differ at most in null entries. -/
structure WorldLike (w w' : World G1 G2 GT) : Prop where
  ctx : CtxLike w.ctx w'.ctx
  cts : ∀ j, CtLike (w.cts j) (w'.cts j)

theorem WorldLike.refl (w : World G1 G2 GT) : WorldLike w w := ⟨.refl _, fun _ => .refl _⟩

/-- The call writes out an object one of whose entries is a null pointer. -/
def WritesNull (w : World G1 G2 GT) : Call q G1 G2 → Prop
  | .exportKey id => ∃ k, (w.ctx.ks.getKey id).1 = some k ∧ ∃ p ∈ k.comps, p.2 = .null
  | .exportCt j => ∃ p ∈ (w.cts j).comps, p.2 = .null
  | _ => False

theorem generateParams_like (env : Env G1 G2 GT) (sch : Scheme) (mpkID mskID : Bytes) (r : ParamRand q G1 G2) (h : CtxLike c c') :
    ∃ e c1 c1', generateParams env sch c mpkID mskID r = .ok (e, c1) ∧ generateParams env sch c' mpkID mskID r = .ok (e, c1') ∧
      CtxLike c1 c1' := by
  obtain ⟨a1, a2⟩ := h.ks.validate mpkID
  obtain ⟨b1, b2⟩ := a2.validate mskID
  unfold generateParams
  simp only [a1, b1, h.alg]
  split
  · exact ⟨_, _, _, rfl, rfl, rfl, rfl, a2⟩
  · split
    · exact ⟨_, _, _, rfl, rfl, rfl, rfl, b2⟩
    · cases sch
      · exact ⟨_, _, _, rfl, rfl, rfl, rfl, (b2.addKey mpkID (.refl _) .pub).addKey mskID (.refl _) .sec⟩
      · exact ⟨_, _, _, rfl, rfl, rfl, rfl, (b2.addKey mpkID (.refl _) .pub).addKey mskID (.refl _) .sec⟩

variable {w w' : World G1 G2 GT}

theorem setCt_like (h : ∀ j, CtLike (w.cts j) (w'.cts j)) (j : Nat) {a b : Ciphertext G1 G2 GT} (hab : CtLike a b) (i : Nat) :
    CtLike (setCt w.cts j a i) (setCt w'.cts j b i) := by
  unfold setCt
  split
  · exact hab
  · exact h i

theorem decrypt_header (env : Env G1 G2 GT) (sch : Scheme) (keyID : Bytes) (ct : Ciphertext G1 G2 GT) (c : Ctx G1 G2 GT) :
    (decrypt q env sch c keyID ct).2.2.version = ct.version ∧ (decrypt q env sch c keyID ct).2.2.alg = ct.alg ∧
      (decrypt q env sch c keyID ct).2.2.uid = ct.uid := by
  unfold decrypt
  simp only
  cases (c.ks.getSecretKey keyID).1 <;> exact ⟨rfl, rfl, rfl⟩

theorem check_like {k k' : KeyStore (Key G1 G2 GT)} (h : StoreLike k k') (id : Bytes) : k.checkSecretKey id = k'.checkSecretKey id := by
  have := isSome_like (h.sec id)
  unfold KeyStore.checkSecretKey
  exact this

/-- One call on worlds that differ at most in null entries. -/
theorem step_like (env : Env G1 G2 GT) (cd : Codec G1 G2 GT) (sch : Scheme) (h : WorldLike w w') (call : Call q G1 G2) :
    WorldLike (step env cd sch w call).2 (valueStep env cd sch w' call).2 ∧
      (WritesNull w call → (step env cd sch w call).1 = .ub) ∧
      (¬ WritesNull w call → (step env cd sch w call).1 = (valueStep env cd sch w' call).1) := by
  cases call with
  | params mpkID mskID r =>
    obtain ⟨e, c1, c1', h1, h2, h3⟩ := generateParams_like env sch mpkID mskID r h.ctx
    simp only [step, valueStep, h1, h2, after]
    exact ⟨⟨h3, h.cts⟩, fun h => h.elim, fun _ => trivial⟩
  | keygen input keyID mpkID mskID r =>
    have := generateKey_agree env sch input keyID mpkID mskID r h.ctx
    simp only [step, valueStep]
    revert this
    cases Scheme.generateKey env sch w'.ctx input keyID mpkID mskID r <;> intro ⟨e1, e2⟩ <;> rw [e1] <;>
      exact ⟨⟨e2, h.cts⟩, fun h => h.elim, fun _ => rfl⟩
  | encrypt j mpkID input plaintext r =>
    have := encrypt_agree env sch input mpkID plaintext r {} h.ctx
    simp only [step, valueStep]
    revert this
    cases Scheme.encrypt env sch w'.ctx mpkID input plaintext r {} with
    | ok x =>
      obtain ⟨x, cx⟩ := x
      intro ⟨e1, e2⟩
      rw [e1]
      cases x with
      | ok ct => exact ⟨⟨e2, setCt_like h.cts j (.refl ct)⟩, fun h => h.elim, fun _ => rfl⟩
      | error e => exact ⟨⟨e2, h.cts⟩, fun h => h.elim, fun _ => rfl⟩
    | _ =>
      intro ⟨e1, e2⟩
      rw [e1]
      exact ⟨⟨e2, h.cts⟩, fun h => h.elim, fun _ => rfl⟩
  | decrypt keyID j =>
    obtain ⟨this, hc⟩ := decrypt_agree (q := q) env sch keyID h.ctx (h.cts j).comps
    obtain ⟨v1, v2, v3⟩ := decrypt_header (q := q) env sch keyID (w.cts j) w.ctx
    have hct : ∀ i, CtLike (setCt w.cts j (decrypt q env sch w.ctx keyID (w.cts j)).2.2 i) (w'.cts i) := by
      intro i
      unfold setCt
      split
      · rename_i e; subst e
        exact ⟨v1.trans (h.cts i).version, v2.trans (h.cts i).alg, v3.trans (h.cts i).uid, hc⟩
      · exact h.cts i
    simp only [step, valueStep]
    revert this
    cases Scheme.decrypt q env sch w'.ctx keyID (w'.cts j) <;> intro ⟨e1, e2⟩ <;> simp only at e1 <;> rw [e1] <;>
      exact ⟨⟨e2, hct⟩, fun h => h.elim, fun _ => rfl⟩
  | hashKey mpkID =>
    have := getHashKey_agree h.ctx mpkID
    simp only [step, valueStep]
    revert this
    cases Cpa.getHashKey w'.ctx mpkID <;> intro ⟨e1, e2⟩ <;> rw [e1] <;>
      exact ⟨⟨e2, h.cts⟩, fun h => h.elim, fun _ => rfl⟩
  | exportKey id =>
    obtain ⟨h1, h2, h3⟩ := exportKey_agree cd h.ctx id
    have hst : (valueStep env cd sch w' (.exportKey id : Call q G1 G2)).2 =
        { w' with ctx := { w'.ctx with ks := (w'.ctx.ks.getKey id).2 } } := by
      simp only [valueStep, Cpa.exportKey]
      cases (w'.ctx.ks.getKey id).1 with
      | none => rfl
      | some k =>
        simp only
        cases caught (k.exportBytes cd) with
        | ok x => cases x <;> rfl
        | _ => rfl
    rw [hst]
    refine ⟨⟨h1, h.cts⟩, fun hw => ?_, fun hw => ?_⟩
    · simp only [step, h2 hw, mapRes]
    · have := h3 hw
      simp only [step, valueStep]
      revert this
      cases Cpa.exportKey cd w'.ctx id <;> intro ⟨e1, e2⟩ <;> rw [e1] <;> rfl
  | loadKey id blob rnd kind =>
    have := loadKey_agree env.mktime cd h.ctx id blob rnd kind
    simp only [step, valueStep]
    revert this
    cases Cpa.loadKey env.mktime cd w'.ctx id blob rnd kind with
    | ok x =>
      intro ⟨e1, e2⟩
      rw [e1]
      exact ⟨⟨e2, h.cts⟩, fun h => h.elim, fun _ => rfl⟩
    | _ =>
      intro ⟨e1, e2⟩
      rw [e1]
      refine ⟨?_, fun h => h.elim, fun _ => rfl⟩
      revert e2
      simp only [after]
      cases (Key.parseHeader blob rnd : Res (Key G1 G2 GT × Bytes)) <;> intro e2 <;> exact ⟨e2, h.cts⟩
  | deleteKey id =>
    obtain ⟨h1, h2⟩ := h.ctx.ks.deleteKey id
    simp only [step, valueStep, Cpa.deleteKey, h1]
    exact ⟨⟨⟨h.ctx.alg, h.ctx.ready, h2⟩, h.cts⟩, fun h => h.elim, fun _ => trivial⟩
  | check id =>
    simp only [step, valueStep, Cpa.checkSecretKey, check_like h.ctx.ks id]
    exact ⟨h, fun h => h.elim, fun _ => trivial⟩
  | exportCt j =>
    have hst : (valueStep env cd sch w' (.exportCt j : Call q G1 G2)).2 = w' := by
      simp only [valueStep]
      cases (w'.cts j).exportBytes cd <;> rfl
    rw [hst]
    refine ⟨h, fun hw => ?_, fun hw => ?_⟩
    · rcases serialize_cases cd (w.cts j).comps with ⟨_, e⟩ | ⟨hn', _⟩
      · simp only [step, Ciphertext.exportBytes, e]; rfl
      · obtain ⟨p, hp, e⟩ := hw
        exact absurd e (hn' p hp)
    · have hk : (w.cts j).comps = (w'.cts j).comps := by
        rcases (h.cts j).comps.eq_or with e | e
        · exact e
        · exact absurd e.mem hw
      have he : (w.cts j).exportBytes cd = (w'.cts j).exportBytes cd := by
        unfold Ciphertext.exportBytes Ciphertext.header
        rw [hk, (h.cts j).version, (h.cts j).alg, (h.cts j).uid]
      simp only [step, valueStep, he]
      cases (w'.cts j).exportBytes cd <;> rfl
  | loadCt j blob =>
    simp only [step, valueStep]
    cases (Ciphertext.load env.mktime cd {} blob : Res (Ciphertext G1 G2 GT)) with
    | ok ct => exact ⟨⟨h.ctx, setCt_like h.cts j (.refl ct)⟩, fun h => h.elim, fun _ => rfl⟩
    | _ => exact ⟨h, fun h => h.elim, fun _ => rfl⟩

theorem run_like (env : Env G1 G2 GT) (cd : Codec G1 G2 GT) (sch : Scheme) : ∀ (cs : List (Call q G1 G2)) (w w' : World G1 G2 GT),
    WorldLike w w' → WorldLike (run env cd sch w cs) (valueRun env cd sch w' cs)
  | [], _, _, h => h
  | c :: cs, _, _, h => run_like env cd sch cs _ _ (step_like env cd sch h c).1

/-! ## Objects without null entries -/

/-- No entry is a null pointer. -/
def NoNull (d : Container G1 G2 GT) : Prop := ∀ p ∈ d, p.2 ≠ .null

/-- Whatever the computation returns satisfies `P`. -/
def Gives {α : Type} (P : α → Prop) (r : Res α) : Prop := ∀ a, r = .ok a → P a

theorem Gives.bind {α β : Type} {P : β → Prop} {r : Res α} {f : α → Res β} (h : ∀ x, r = .ok x → Gives P (f x)) :
    Gives P (r >>= f) := by
  intro b hb
  cases r with
  | ok x => exact h x rfl b hb
  | throw e => exact absurd hb (by simp [Bind.bind, Res.bind])
  | ub => exact absurd hb (by simp [Bind.bind, Res.bind])
  | abort => exact absurd hb (by simp [Bind.bind, Res.bind])

theorem Gives.ok {α : Type} {P : α → Prop} {a : α} (h : P a) : Gives P (.ok a) := by
  intro b hb
  cases hb
  exact h

theorem Gives.bad {α : Type} {P : α → Prop} {e : Err} : Gives P (.throw e : Res α) := by
  intro b hb
  cases hb

theorem NoNull.insert {d : Container G1 G2 GT} (h : NoNull d) (n : Bytes) {o : Obj G1 G2 GT} (ho : o ≠ .null) :
    NoNull (SMap.insert n o d) := by
  intro p hp
  rcases SMap.mem_insert' hp with rfl | hp
  · exact ho
  · exact h p hp

theorem NoNull.set {d : Container G1 G2 GT} (h : NoNull d) {n : Bytes} {o : Obj G1 G2 GT} {d' : Container G1 G2 GT}
    (ho : ∀ p, o ≠ .policy p) (e : Container.setComponent d n o = .ok d') : NoNull d' := by
  unfold Container.setComponent at e
  cases o with
  | null => exact absurd e (by simp [Obj.clone, Bind.bind, Res.bind])
  | policy p => exact absurd rfl (ho p)
  | _ =>
    cases e
    exact h.insert n (by simp)

theorem noNull_nil : NoNull ([] : Container G1 G2 GT) := by intro p hp; simp at hp

theorem cpKeyLoop_noNull (env : Env G1 G2 GT) (k : Option Bytes) (t : ZMod q) : ∀ (as : List Bytes) (d : Container G1 G2 GT),
    NoNull d → Gives NoNull (cpKeyLoop env k t as d)
  | [], _, h => .ok h
  | a :: as, d, h => by
    unfold cpKeyLoop
    exact .bind fun _ _ => .bind fun _ e => cpKeyLoop_noNull env k t as _ (h.set (by simp) e)

theorem cpKeyBody_noNull (env : Env G1 G2 GT) (mpk msk : Key G1 G2 GT) (l : AttrList) (t : ZMod q) :
    Gives NoNull (Scheme.cpKeyBody env c mpk msk l t) := by
  unfold Scheme.cpKeyBody
  refine .bind fun _ _ => .bind fun _ e1 => .bind fun _ _ => .bind fun _ _ => .bind fun _ _ => .bind fun _ _ => .bind fun _ _ =>
    .bind fun _ _ => .bind fun _ _ => .bind fun _ e2 => .bind fun _ _ => .bind fun _ _ => .bind fun _ e3 => ?_
  exact cpKeyLoop_noNull env _ t _ _ (((noNull_nil.set (by simp) e1).set (by simp) e2).set (by simp) e3)

theorem kpKeyLoop_noNull (env : Env G1 G2 GT) (mpk : Key G1 G2 GT) (k : Option Bytes) (r : Nat → ZMod q) :
    ∀ (rows : List (Bytes × (Bytes × ZMod q))) (i : Nat) (d : Container G1 G2 GT),
      NoNull d → Gives NoNull (Scheme.kpKeyLoop env mpk k r i rows d)
  | [], _, _, h => .ok h
  | row :: rows, i, d, h => by
    unfold Scheme.kpKeyLoop
    exact .bind fun _ _ => .bind fun _ _ => .bind fun _ _ => .bind fun _ _ => .bind fun _ _ => .bind fun _ e1 => .bind fun _ e2 =>
      kpKeyLoop_noNull env mpk k r rows _ _ ((h.set (by simp) e1).set (by simp) e2)

theorem kpKeyBody_noNull (env : Env G1 G2 GT) (mpk msk : Key G1 G2 GT) (p : Policy) (tape r : Nat → ZMod q) :
    Gives NoNull (Scheme.kpKeyBody env c mpk msk p tape r) := by
  unfold Scheme.kpKeyBody
  refine .bind fun _ _ => .bind fun _ e1 => .bind fun _ _ => .bind fun _ _ => .bind fun x _ => ?_
  obtain ⟨sh, _⟩ := x
  simp only
  split
  · exact .ok (noNull_nil.set (by simp) e1)
  · exact .bind fun _ _ => kpKeyLoop_noNull env mpk _ _ _ _ _ (noNull_nil.set (by simp) e1)

theorem keyOf_noNull (env : Env G1 G2 GT) (sch : Scheme) (input : FInput) (r : Rand q) (mpk msk : Key G1 G2 GT) :
    Gives NoNull (keyOf env sch c input r mpk msk) := by
  unfold keyOf
  split
  · exact cpKeyBody_noNull env mpk msk _ _
  · exact kpKeyBody_noNull env mpk msk _ _ _
  · exact .bad

theorem cpEncLoop_noNull (env : Env G1 G2 GT) (mpk : Key G1 G2 GT) (k : Option Bytes) (r : Nat → ZMod q) :
    ∀ (rows : List (Bytes × (Bytes × ZMod q))) (i : Nat) (d : Container G1 G2 GT),
      NoNull d → Gives NoNull (Scheme.cpEncLoop env mpk k r i rows d)
  | [], _, _, h => .ok h
  | row :: rows, i, d, h => by
    unfold Scheme.cpEncLoop
    exact .bind fun _ _ => .bind fun _ _ => .bind fun _ e1 => .bind fun _ _ => .bind fun _ _ => .bind fun _ _ => .bind fun _ e2 =>
      cpEncLoop_noNull env mpk k r rows _ _ ((h.set (by simp) e1).set (by simp) e2)

theorem cpEncBody_noNull (env : Env G1 G2 GT) (mpk : Key G1 G2 GT) (p : Policy) (len : Nat) (r : Rand q)
    (ct : Ciphertext G1 G2 GT) (h : NoNull ct.comps) :
    Gives (fun x => NoNull x.2.comps) (Scheme.cpEncBody env c mpk p len r ct) := by
  unfold Scheme.cpEncBody
  exact .bind fun _ _ => .bind fun _ _ => .bind fun _ _ => .bind fun _ _ => .bind fun x _ => .bind fun _ e1 => .bind fun _ _ =>
    .bind fun _ _ => .bind fun _ e2 => .bind fun _ e3 => .bind fun _ _ =>
    .ok (cpEncLoop_noNull env mpk _ _ _ _ _ ((h.set (by simp) e1).set (by simp) e2) _ e3)

theorem kpEncLoop_noNull (env : Env G1 G2 GT) (k : Option Bytes) (t : ZMod q) : ∀ (as : List Bytes) (d : Container G1 G2 GT),
    NoNull d → Gives NoNull (kpEncLoop env k t as d)
  | [], _, h => .ok h
  | a :: as, d, h => by
    unfold kpEncLoop
    exact .bind fun _ _ => .bind fun _ e => kpEncLoop_noNull env k t as _ (h.set (by simp) e)

theorem kpEncBody_noNull (env : Env G1 G2 GT) (mpk : Key G1 G2 GT) (l : AttrList) (len : Nat) (r : Rand q)
    (ct : Ciphertext G1 G2 GT) (h : NoNull ct.comps) :
    Gives (fun x => NoNull x.2.comps) (Scheme.kpEncBody env c mpk l len r ct) := by
  unfold Scheme.kpEncBody
  exact .bind fun _ _ => .bind fun _ _ => .bind fun _ _ => .bind fun _ _ => .bind fun _ _ => .bind fun _ _ => .bind fun _ e1 =>
    .bind fun _ e2 => .bind fun _ e3 => .bind fun _ _ =>
    .ok ((kpEncLoop_noNull env _ _ _ _ (h.set (by simp) e1) _ e2).set (by simp) e3)

theorem encOf_noNull (env : Env G1 G2 GT) (sch : Scheme) (input : FInput) (r : Rand q) (mpk : Key G1 G2 GT) :
    Gives (fun x => NoNull x.2.comps) (encOf env sch c input r {} mpk) := by
  unfold encOf
  split
  · exact cpEncBody_noNull env mpk _ _ _ _ noNull_nil
  · exact kpEncBody_noNull env mpk _ _ _ _ noNull_nil
  · exact .bad

/-! ## Programs without failed lookups -/

/-- No key of the store has a null entry. -/
structure CleanStore (k : KeyStore (Key G1 G2 GT)) : Prop where
  pub : ∀ id x, SMap.find id k.pub = some (some x) → NoNull x.comps
  sec : ∀ id x, SMap.find id k.sec = some (some x) → NoNull x.comps

/-- No stored key and no ciphertext has a null entry. -/
structure Clean (w : World G1 G2 GT) : Prop where
  keys : CleanStore w.ctx.ks
  cts : ∀ j, NoNull (w.cts j).comps

/-- The call reported or raised `OpenABE_ERROR_ELEMENT_NOT_FOUND`. -/
def notFound : Res Out → Bool
  | .throw .elementNotFound => true
  | .ok (.code (some .elementNotFound)) => true
  | .ok (.plain (some .elementNotFound) _) => true
  | _ => false

/-- The bytes that the call reads hold no policy element: `OpenABEPolicy` cannot be copied and is stored as a null pointer. -/
def ReadsClean (env : Env G1 G2 GT) (cd : Codec G1 G2 GT) : Call q G1 G2 → Prop
  | .loadKey _ blob rnd _ => ∀ k body k1, (Key.parseHeader blob rnd : Res (Key G1 G2 GT × Bytes)) = .ok (k, body) →
      k.loadBody env.mktime cd body = .ok k1 → NoNull k1.comps
  | .loadCt _ blob => ∀ ct : Ciphertext G1 G2 GT, Ciphertext.load env.mktime cd {} blob = .ok ct → NoNull ct.comps
  | _ => True

variable {k : KeyStore (Key G1 G2 GT)}

theorem find_touch {m : SMap (Option (Key G1 G2 GT))} {id j : Bytes} {x : Key G1 G2 GT}
    (h : SMap.find j (KeyStore.touch m id).2 = some (some x)) : SMap.find j m = some (some x) := by
  unfold KeyStore.touch at h
  cases e : SMap.find id m with
  | none =>
    rw [e] at h
    simp only [SMap.find_insert] at h
    split at h
    · simp at h
    · exact h
  | some v => rw [e] at h; exact h

theorem CleanStore.getPublicKey (h : CleanStore k) (id : Bytes) : CleanStore (k.getPublicKey id).2 :=
  ⟨fun j x e => h.pub j x (find_touch e), h.sec⟩

theorem CleanStore.getSecretKey (h : CleanStore k) (id : Bytes) : CleanStore (k.getSecretKey id).2 :=
  ⟨h.pub, fun j x e => h.sec j x (find_touch e)⟩

theorem CleanStore.getKey (h : CleanStore k) (id : Bytes) : CleanStore (k.getKey id).2 := by
  unfold KeyStore.getKey
  simp only
  cases (k.getPublicKey id).1 with
  | none => exact (h.getPublicKey id).getSecretKey id
  | some x => exact h.getPublicKey id

theorem CleanStore.validate (h : CleanStore k) (id : Bytes) : CleanStore (k.validateNewParamsID id).2 := h.getKey id

theorem CleanStore.addKey (h : CleanStore k) (id : Bytes) {x : Key G1 G2 GT} (hx : NoNull x.comps) (kind : KeyKind) :
    CleanStore (k.addKey id x kind) := by
  cases kind with
  | pub =>
    refine ⟨fun j y e => ?_, h.sec⟩
    simp only [KeyStore.addKey, SMap.find_insert] at e
    split at e
    · cases e; exact hx
    · exact h.pub j y e
  | sec =>
    refine ⟨h.pub, fun j y e => ?_⟩
    simp only [KeyStore.addKey, SMap.find_insert] at e
    split at e
    · cases e; exact hx
    · exact h.sec j y e
  | other => exact h

theorem CleanStore.deleteKey (h : CleanStore k) (id : Bytes) : CleanStore (k.deleteKey id).2 := by
  have hk := h.getKey id
  have he : CleanStore ⟨SMap.erase id (k.getKey id).2.pub, SMap.erase id (k.getKey id).2.sec⟩ := by
    refine ⟨fun j x e => ?_, fun j x e => ?_⟩
    · simp only [SMap.find_erase] at e
      split at e
      · simp at e
      · exact hk.pub j x e
    · simp only [SMap.find_erase] at e
      split at e
      · simp at e
      · exact hk.sec j x e
  unfold KeyStore.deleteKey
  simp only
  cases (k.getKey id).1 with
  | none => exact hk
  | some x =>
    simp only
    split <;> exact he

theorem CleanStore.setPub (h : CleanStore k) (id : Bytes) {d : Container G1 G2 GT} (hd : NoNull d) : CleanStore (setPub k id d) := by
  unfold Live.setPub
  split
  · refine ⟨fun j y e => ?_, h.sec⟩
    simp only [SMap.find_insert] at e
    split at e
    · cases e; exact hd
    · exact h.pub j y e
  · exact h

theorem CleanStore.setSec (h : CleanStore k) (id : Bytes) {d : Container G1 G2 GT} (hd : NoNull d) : CleanStore (setSec k id d) := by
  unfold Live.setSec
  split
  · refine ⟨h.pub, fun j y e => ?_⟩
    simp only [SMap.find_insert] at e
    split at e
    · cases e; exact hd
    · exact h.sec j y e
  · exact h

theorem caught_notFound {α : Type} : caught (.throw .elementNotFound : Res α) = .ok (.error .elementNotFound) := rfl

theorem generateKey_clean (env : Env G1 G2 GT) (sch : Scheme) (input : FInput) (keyID mpkID mskID : Bytes) (r : Rand q)
    (h : CleanStore c.ks) (hn : (generateKey env sch c input keyID mpkID mskID r).1 ≠ .ok (some .elementNotFound)) :
    CleanStore (generateKey env sch c input keyID mpkID mskID r).2.ks := by
  revert hn
  unfold generateKey
  simp only
  have hs := (h.getPublicKey mpkID).getSecretKey mskID
  split
  · exact fun _ => h
  · cases ep : (c.ks.getPublicKey mpkID).1 with
    | none => exact fun _ => hs
    | some mpk =>
      cases es : ((c.ks.getPublicKey mpkID).2.getSecretKey mskID).1 with
      | none => exact fun _ => hs
      | some msk =>
        have h1 := h.pub _ _ (find_of_pub ep).1
        have h2 := (h.getPublicKey mpkID).sec _ _ (find_of_sec es).1
        obtain ⟨e1, -, -, e4⟩ := sim_keyOf env sch input r mpk msk (c := c) (c' := c) rfl (mpk.comps, msk.comps) (.refl _) (.refl _)
        simp only
        generalize keyBody env sch c input r (mpk.comps, msk.comps) = out at *
        intro hn
        have hk : CleanStore (setSec (setPub ((c.ks.getPublicKey mpkID).2.getSecretKey mskID).2 mpkID out.2.1) mskID out.2.2) := by
          rcases e4 with e4 | e4
          · rw [e4]
            exact (hs.setPub _ h1).setSec _ h2
          · exfalso
            rw [e1, e4] at hn
            exact hn rfl
        have hg := keyOf_noNull (c := c) env sch input r mpk msk
        rw [e1]
        rcases caught_cases (keyOf env sch c input r mpk msk) with ⟨a, e, k⟩ | ⟨e, e', k⟩ | ⟨e, e', _, k⟩ | ⟨e, k⟩ | ⟨e, k⟩ <;>
          rw [k]
        · exact hk.addKey keyID (x := newKey c.alg keyID r.uid a) (hg a e) .sec
        all_goals exact hk

theorem encrypt_clean (env : Env G1 G2 GT) (sch : Scheme) (input : FInput) (mpkID plaintext : Bytes) (r : Rand q)
    (h : CleanStore c.ks) (hn : (encrypt env sch c mpkID input plaintext r {}).1 ≠ .ok (.error .elementNotFound)) :
    CleanStore (encrypt env sch c mpkID input plaintext r {}).2.ks ∧
      ∀ ct, (encrypt env sch c mpkID input plaintext r {}).1 = .ok (.ok ct) → NoNull ct.comps := by
  revert hn
  unfold encrypt
  simp only
  have hs := h.getPublicKey mpkID
  split
  · exact fun _ => ⟨h, fun ct e => by simp at e⟩
  · cases ep : (c.ks.getPublicKey mpkID).1 with
    | none => exact fun _ => ⟨hs, fun ct e => by simp at e⟩
    | some mpk =>
      have h1 := h.pub _ _ (find_of_pub ep).1
      obtain ⟨e1, -, -, e4⟩ := sim_encOf env sch input r {} mpk (c := c) (c' := c) rfl rfl (mpk.comps, []) (.refl _) (.refl _)
      simp only
      generalize encBody env sch c input r {} (mpk.comps, []) = out at *
      intro hn
      have hk : CleanStore (setPub (c.ks.getPublicKey mpkID).2 mpkID out.2.1) := by
        rcases e4 with e4 | e4
        · rw [e4]
          exact hs.setPub _ h1
        · exfalso
          rw [e1, e4] at hn
          exact hn rfl
      have hg := encOf_noNull (c := c) env sch input r mpk
      rw [e1]
      rcases caught_cases (encOf env sch c input r {} mpk) with ⟨⟨K, ct1⟩, e, k⟩ | ⟨e, e', k⟩ | ⟨e, e', _, k⟩ | ⟨e, k⟩ | ⟨e, k⟩ <;>
        rw [k]
      · refine ⟨hk, ?_⟩
        have hc := hg _ e
        intro ct he
        have hgv : Gives (fun x : Except Err (Ciphertext G1 G2 GT) => ∀ ct, x = .ok ct → NoNull ct.comps) (do
            let x ← BS.xorAssign plaintext (hashFromBytes env.md K plaintext.length schemeHashPrefix)
            let d ← Container.setComponent ct1.comps b!"_ED" (.bytes x)
            .ok (.ok { ct1 with comps := d })) :=
          .bind fun x _ => .bind fun d e => .ok fun ct he => by
            cases he
            exact NoNull.set hc (by simp) e
        exact hgv _ he ct rfl
      all_goals exact ⟨hk, fun ct e => by simp at e⟩

theorem decrypt_clean (env : Env G1 G2 GT) (sch : Scheme) (keyID : Bytes) (ct : Ciphertext G1 G2 GT)
    (h : CleanStore c.ks) (hct : NoNull ct.comps) (hn : ∀ p, (decrypt q env sch c keyID ct).1 ≠ .ok (some .elementNotFound, p)) :
    CleanStore (decrypt q env sch c keyID ct).2.1.ks ∧ NoNull (decrypt q env sch c keyID ct).2.2.comps := by
  revert hn
  unfold decrypt
  simp only
  have hs := h.getSecretKey keyID
  cases es : (c.ks.getSecretKey keyID).1 with
  | none => exact fun _ => ⟨hs, hct⟩
  | some key =>
    have h1 := h.sec _ _ (find_of_sec es).1
    obtain ⟨e1, -, -, e4⟩ := sim_plainOf (q := q) env sch key.comps ct.comps (c := c) (c' := c) rfl (key.comps, ct.comps)
      (.refl _) (.refl _)
    simp only
    generalize plainBody q env sch c (key.comps, ct.comps) = out at *
    intro hn
    rcases e4 with e4 | e4
    · rw [e4]
      exact ⟨hs.setSec _ h1, hct⟩
    · exfalso
      rw [e1, e4] at hn
      exact hn [] rfl

theorem getHashKey_clean (mpkID : Bytes) (h : CleanStore c.ks) (hn : (getHashKey c mpkID).1 ≠ .throw .elementNotFound) :
    CleanStore (getHashKey c mpkID).2.ks := by
  revert hn
  unfold getHashKey
  simp only
  have hs := h.getPublicKey mpkID
  cases es : (c.ks.getPublicKey mpkID).1 with
  | none => exact fun _ => hs
  | some mpk =>
    have h1 := h.pub _ _ (find_of_pub es).1
    simp only
    intro hn
    rcases getComponent_same mpk.comps b!"k" with e | e
    · rw [e]; exact hs.setPub _ h1
    · exact absurd (by rw [e]; rfl) hn

theorem cpParams_noNull (env : Env G1 G2 GT) (r : ParamRand q G1 G2) :
    Gives (fun x => NoNull x.1 ∧ NoNull x.2) (cpParams env r) := by
  unfold cpParams
  exact .bind fun _ e1 => .bind fun _ e2 => .bind fun _ e3 => .bind fun _ e4 => .bind fun _ e5 => .bind fun _ f1 => .bind fun _ f2 =>
    .ok ⟨((((noNull_nil.set (by simp) e1).set (by simp) e2).set (by simp) e3).set (by simp) e4).set (by simp) e5,
      (noNull_nil.set (by simp) f1).set (by simp) f2⟩

theorem kpParams_noNull (env : Env G1 G2 GT) (r : ParamRand q G1 G2) :
    Gives (fun x => NoNull x.1 ∧ NoNull x.2) (kpParams env r) := by
  unfold kpParams
  exact .bind fun _ e1 => .bind fun _ e2 => .bind fun _ e3 => .bind fun _ e4 => .bind fun _ f1 =>
    .ok ⟨(((noNull_nil.set (by simp) e1).set (by simp) e2).set (by simp) e3).set (by simp) e4, noNull_nil.set (by simp) f1⟩

theorem generateParams_clean (env : Env G1 G2 GT) (sch : Scheme) (mpkID mskID : Bytes) (r : ParamRand q G1 G2)
    (h : CleanStore c.ks) : Gives (fun x => CleanStore x.2.ks) (generateParams env sch c mpkID mskID r) := by
  unfold generateParams
  simp only
  split
  · exact .ok (h.validate _)
  · split
    · exact .ok ((h.validate _).validate _)
    · have h2 := (h.validate mpkID).validate mskID
      cases sch with
      | cp =>
        refine .bind fun pm e => .ok ?_
        have := cpParams_noNull env r pm e
        exact (h2.addKey mpkID (x := newKey c.alg mpkID r.uid1 pm.1) this.1 .pub).addKey mskID
          (x := newKey c.alg mskID r.uid2 pm.2) this.2 .sec
      | kp =>
        refine .bind fun pm e => .ok ?_
        have := kpParams_noNull env r pm e
        exact (h2.addKey mpkID (x := newKey c.alg mpkID r.uid1 pm.1) this.1 .pub).addKey mskID
          (x := newKey c.alg mskID r.uid2 pm.2) this.2 .sec

variable {w : World G1 G2 GT}

/-- A call that does not report a missing component leaves no null entries. -/
theorem step_clean (env : Env G1 G2 GT) (cd : Codec G1 G2 GT) (sch : Scheme) (call : Call q G1 G2) (h : Clean w)
    (hr : ReadsClean env cd call) (hn : notFound (step env cd sch w call).1 = false) : Clean (step env cd sch w call).2 := by
  cases call with
  | params mpkID mskID r =>
    have := generateParams_clean env sch mpkID mskID r h.keys
    simp only [step]
    revert this
    cases generateParams env sch w.ctx mpkID mskID r with
    | ok x => exact fun hc => ⟨hc _ rfl, h.cts⟩
    | _ => exact fun _ => h
  | keygen input keyID mpkID mskID r =>
    refine ⟨generateKey_clean env sch input keyID mpkID mskID r h.keys fun e => ?_, h.cts⟩
    simp only [step, e, mapRes, notFound] at hn
    exact absurd hn (by simp)
  | encrypt j mpkID input plaintext r =>
    have := encrypt_clean env sch input mpkID plaintext r h.keys (c := w.ctx)
    simp only [step] at hn ⊢
    revert this hn
    cases (encrypt env sch w.ctx mpkID input plaintext r {}).1 with
    | ok x =>
      cases x with
      | ok ct =>
        intro hn hc
        obtain ⟨h1, h2⟩ := hc (by simp)
        refine ⟨h1, fun i => ?_⟩
        simp only [setCt]
        split
        · exact h2 ct rfl
        · exact h.cts i
      | error e =>
        intro hn hc
        exact ⟨(hc fun e' => by cases e'; exact absurd hn (by simp [notFound])).1, h.cts⟩
    | _ => exact fun _ hc => ⟨(hc (by simp)).1, h.cts⟩
  | decrypt keyID j =>
    obtain ⟨h1, h2⟩ := decrypt_clean (q := q) env sch keyID (w.cts j) h.keys (h.cts j) fun p e => by
      simp only [step, e, mapRes, notFound] at hn
      exact absurd hn (by simp)
    refine ⟨h1, fun i => ?_⟩
    simp only [step, setCt]
    split
    · exact h2
    · exact h.cts i
  | hashKey mpkID =>
    refine ⟨getHashKey_clean mpkID h.keys fun e => ?_, h.cts⟩
    simp only [step, e, mapRes, notFound] at hn
    exact absurd hn (by simp)
  | exportKey id =>
    refine ⟨?_, h.cts⟩
    simp only [step, exportKey]
    cases (w.ctx.ks.getKey id).1 <;> exact h.keys.getKey id
  | loadKey id blob rnd kind =>
    refine ⟨?_, h.cts⟩
    simp only [step, loadKey]
    simp only [ReadsClean] at hr
    revert hr
    cases e : (Key.parseHeader blob rnd : Res (Key G1 G2 GT × Bytes)) with
    | ok x =>
      obtain ⟨k, body⟩ := x
      intro hr
      simp only
      split
      · exact h.keys
      · cases e1 : k.loadBody env.mktime cd body with
        | ok k1 => exact h.keys.addKey _ (hr k body k1 rfl e1) _
        | _ => exact h.keys
    | _ => exact fun _ => h.keys
  | deleteKey id => exact ⟨h.keys.deleteKey id, h.cts⟩
  | check id => exact h
  | exportCt j => exact h
  | loadCt j blob =>
    simp only [step]
    simp only [ReadsClean] at hr
    revert hr
    cases (Ciphertext.load env.mktime cd {} blob : Res (Ciphertext G1 G2 GT)) with
    | ok ct =>
      intro hr
      refine ⟨h.keys, fun i => ?_⟩
      simp only [setCt]
      split
      · exact hr ct rfl
      · exact h.cts i
    | _ => exact fun _ => h

/-- On worlds without null entries nothing with a null entry is written. -/
theorem Clean.writes (h : Clean w) (call : Call q G1 G2) : ¬ WritesNull w call := by
  cases call with
  | exportKey id =>
    rintro ⟨k, e, p, hp, hn⟩
    unfold KeyStore.getKey at e
    simp only at e
    cases ep : (w.ctx.ks.getPublicKey id).1 with
    | some x =>
      simp only [ep] at e
      cases e
      exact h.keys.pub _ _ (find_of_pub ep).1 p hp hn
    | none =>
      simp only [ep] at e
      exact (h.keys.getPublicKey id).sec _ _ (find_of_sec e).1 p hp hn
  | exportCt j =>
    rintro ⟨p, hp, hn⟩
    exact h.cts j p hp hn
  | _ => exact fun h => h

end Live
end Abe
