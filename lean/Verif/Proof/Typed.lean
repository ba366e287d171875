import Verif.Proof.SchemeObjects
import Verif.Props.Scheme
/-!
# Components of the right type
-/
set_option linter.unusedSimpArgs false
set_option linter.unusedSectionVars false
set_option autoImplicit false
namespace Abe
namespace Live
open Scheme
variable {G1 G2 GT : Type}

/-- The types of components. A `text` is a byte string that is the text of a policy. -/
inductive Kind
  | zp
  | g1
  | g2
  | gt
  | bytes
  | text
  | attrs
  deriving DecidableEq

/-- The object has the type, or is a null pointer. -/
def Kind.Fits (mk : Mktime) : Kind → Obj G1 G2 GT → Prop
  | _, .null => True
  | .zp, .zp _ => True
  | .g1, .g1 _ => True
  | .g2, .g2 _ => True
  | .gt, .gt _ => True
  | .bytes, .bytes _ => True
  | .text, .bytes s => ∃ p, createPolicyTree mk s = .ok (some p)
  | .attrs, .attrs _ => True
  | _, _ => False

/-- The components with a fixed name and their types. -/
def names : Scheme → List (Bytes × Kind)
  | .cp => [(b!"g1", .g1), (b!"g2", .g2), (b!"g1a", .g1), (b!"A", .gt), (b!"k", .bytes), (b!"alpha", .zp), (b!"g2a", .g2),
      (b!"input", .attrs), (b!"K", .g2), (b!"L", .g2), (b!"policy", .text), (b!"Cprime", .g1), (b!"_ED", .bytes)]
  | .kp => [(b!"g1", .g1), (b!"g2", .g2), (b!"Y", .gt), (b!"k", .bytes), (b!"y", .zp), (b!"input", .text), (b!"Cpr2", .g2),
      (b!"attributes", .attrs), (b!"_ED", .bytes)]

/-- The components made for each attribute or row: the first part of the label and the type. -/
def families : Scheme → List (Bytes × Kind)
  | .cp => [(b!"KX", .g1), (b!"C", .g1), (b!"D", .g2)]
  | .kp => [(b!"D", .g1), (b!"d", .g2), (b!"C", .g1)]

/-- Every component that the scheme uses has its type or is a null pointer. -/
structure Typed (mk : Mktime) (sch : Scheme) (d : Container G1 G2 GT) : Prop where
  name : ∀ n k o, (n, k) ∈ names sch → SMap.find n d = some o → k.Fits mk o
  family : ∀ b k u o, (b, k) ∈ families sch → SMap.find (elementLabel b u) d = some o → k.Fits mk o

variable {mk : Mktime} {sch : Scheme} {d : Container G1 G2 GT}

theorem typed_nil : Typed mk sch ([] : Container G1 G2 GT) :=
  ⟨fun _ _ _ _ h => by simp [SMap.find] at h, fun _ _ _ _ _ h => by simp [SMap.find] at h⟩

theorem names_unique : ∀ sch : Scheme, ∀ x ∈ names sch, ∀ y ∈ names sch, x.1 = y.1 → x.2 = y.2
  | .cp => by decide
  | .kp => by decide

theorem names_families (n : Bytes) (k : Kind) (b : Bytes) (k' : Kind) (u : Bytes) (h : (n, k) ∈ names sch)
    (h' : (b, k') ∈ families sch) : n ≠ elementLabel b u := by
  cases sch <;> simp only [names, families, List.mem_cons, Prod.mk.injEq, List.not_mem_nil, or_false] at h h' <;>
    rcases h' with ⟨rfl, -⟩ | ⟨rfl, -⟩ | ⟨rfl, -⟩ <;>
    (rcases h with ⟨rfl, -⟩ | ⟨rfl, -⟩ | ⟨rfl, -⟩ | ⟨rfl, -⟩ | ⟨rfl, -⟩ | ⟨rfl, -⟩ | ⟨rfl, -⟩ | ⟨rfl, -⟩ | ⟨rfl, -⟩ | h <;>
      first
        | (simp [elementLabel]; done)
        | (rcases h with ⟨rfl, -⟩ | ⟨rfl, -⟩ | ⟨rfl, -⟩ | ⟨rfl, -⟩ <;> simp [elementLabel]))

theorem families_unique (b b' : Bytes) (k k' : Kind) (u u' : Bytes) (h : (b, k) ∈ families sch) (h' : (b', k') ∈ families sch)
    (e : elementLabel b u = elementLabel b' u') : k = k' := by
  cases sch <;> simp only [families, List.mem_cons, Prod.mk.injEq, List.not_mem_nil, or_false] at h h' <;>
    rcases h with ⟨rfl, rfl⟩ | ⟨rfl, rfl⟩ | ⟨rfl, rfl⟩ <;> rcases h' with ⟨rfl, rfl⟩ | ⟨rfl, rfl⟩ | ⟨rfl, rfl⟩ <;>
    first | rfl | (simp [elementLabel] at e)

theorem Typed.set (h : Typed mk sch d) {n : Bytes} {k : Kind} {o : Obj G1 G2 GT} (hn : (n, k) ∈ names sch) (ho : k.Fits mk o) :
    Typed mk sch (SMap.insert n o d) where
  name m k' o' hm hf := by
    rw [SMap.find_insert] at hf
    split at hf
    · rename_i e
      cases hf
      have := names_unique sch _ hm _ hn e
      simp only at this
      rw [this]; exact ho
    · exact h.name m k' o' hm hf
  family b k' u o' hb hf := by
    rw [SMap.find_insert] at hf
    split at hf
    · rename_i e
      exact absurd e.symm (names_families n k b k' u hn hb)
    · exact h.family b k' u o' hb hf

theorem Typed.setLabel (h : Typed mk sch d) {b u : Bytes} {k : Kind} {o : Obj G1 G2 GT} (hb : (b, k) ∈ families sch)
    (ho : k.Fits mk o) : Typed mk sch (SMap.insert (elementLabel b u) o d) where
  name m k' o' hm hf := by
    rw [SMap.find_insert] at hf
    split at hf
    · rename_i e
      exact absurd e (names_families m k' b k u hm hb)
    · exact h.name m k' o' hm hf
  family b' k' u' o' hb' hf := by
    rw [SMap.find_insert] at hf
    split at hf
    · rename_i e
      cases hf
      rw [families_unique b' b k' k u' u hb' hb e]; exact ho
    · exact h.family b' k' u' o' hb' hf

/-! ## Calls that end with a value or an error code -/

/-- A value with the property, or an error that `catch (OpenABE_ERROR &)` catches. -/
inductive Fine {α : Type} (P : α → Prop) : Res α → Prop
  | ok {a : α} (h : P a) : Fine P (.ok a)
  | throw {e : Err} (h1 : e ≠ .outOfRange) (h2 : e ≠ .runtimeError) : Fine P (.throw e)

theorem Fine.bind {α β : Type} {P : α → Prop} {Q : β → Prop} {r : Res α} {f : α → Res β} (h : Fine P r)
    (hf : ∀ a, P a → Fine Q (f a)) : Fine Q (r >>= f) := by
  cases h with
  | ok h => exact hf _ h
  | throw h1 h2 => exact .throw h1 h2

theorem Fine.caught {α : Type} {P : α → Prop} {r : Res α} (h : Fine P r) :
    (∃ a, P a ∧ caught r = .ok (.ok a)) ∨ ∃ e, Scheme.caught r = .ok (.error e) := by
  cases h with
  | ok h => exact .inl ⟨_, h, rfl⟩
  | throw h1 h2 =>
    rename_i e
    exact .inr ⟨e, by cases e <;> first | rfl | exact absurd rfl h1 | exact absurd rfl h2⟩

theorem fine_get {k : Kind} {n : Bytes} (h : ∀ o, SMap.find n d = some o → k.Fits mk o) :
    Fine (fun o => k.Fits mk o ∧ o ≠ .null) (Container.getComponent d n).1 := by
  unfold Container.getComponent
  cases e : SMap.find n d with
  | none => exact .throw (by simp) (by simp)
  | some o => cases o <;> first | exact .throw (by simp) (by simp) | exact .ok ⟨h _ e, by simp⟩

theorem fine_zp {n : Bytes} (h : ∀ o, SMap.find n d = some o → Kind.zp.Fits mk o) : Fine (fun o => o.isSome) (getZP d n) := by
  unfold getZP
  refine (fine_get h).bind fun o ho => .ok ?_
  cases o <;> simp_all [Kind.Fits]
theorem fine_g1 {n : Bytes} (h : ∀ o, SMap.find n d = some o → Kind.g1.Fits mk o) : Fine (fun o => o.isSome) (getG1 d n) := by
  unfold getG1
  refine (fine_get h).bind fun o ho => .ok ?_
  cases o <;> simp_all [Kind.Fits]
theorem fine_g2 {n : Bytes} (h : ∀ o, SMap.find n d = some o → Kind.g2.Fits mk o) : Fine (fun o => o.isSome) (getG2 d n) := by
  unfold getG2
  refine (fine_get h).bind fun o ho => .ok ?_
  cases o <;> simp_all [Kind.Fits]
theorem fine_gt {n : Bytes} (h : ∀ o, SMap.find n d = some o → Kind.gt.Fits mk o) : Fine (fun o => o.isSome) (getGT d n) := by
  unfold getGT
  refine (fine_get h).bind fun o ho => .ok ?_
  cases o <;> simp_all [Kind.Fits]
theorem fine_bytes {n : Bytes} (h : ∀ o, SMap.find n d = some o → Kind.bytes.Fits mk o) : Fine (fun o => o.isSome) (getBytes d n) := by
  unfold getBytes
  refine (fine_get h).bind fun o ho => .ok ?_
  cases o <;> simp_all [Kind.Fits]
theorem fine_text {n : Bytes} (h : ∀ o, SMap.find n d = some o → Kind.text.Fits mk o) :
    Fine (fun o => ∃ s p, o = some s ∧ createPolicyTree mk s = .ok (some p)) (getBytes d n) := by
  unfold getBytes
  refine (fine_get h).bind fun o ho => .ok ?_
  cases o <;> simp_all [Kind.Fits]

theorem fine_deref {α : Type} {o : Option α} (h : o.isSome = true) : Fine (fun _ => True) (deref o) := by
  cases o with
  | none => simp at h
  | some a => exact .ok trivial

theorem fine_notNull {α : Type} (o : Option α) : Fine (fun _ => True) (notNull o) := by
  cases o with
  | none => exact .throw (by simp) (by simp)
  | some a => exact .ok trivial

theorem fine_ready {c : Ctx G1 G2 GT} (h : c.ready = true) : Fine (fun _ => True) (usePairing c) := by
  unfold usePairing; rw [if_pos h]; exact .ok trivial

theorem fine_symKey (env : Env G1 G2 GT) (x : GT) (len : Nat) : Fine (fun _ => True) (symKeyOf env x len) := by
  unfold symKeyOf
  simp only
  split
  · exact .throw (by simp) (by simp)
  · split
    · exact .throw (by simp) (by simp)
    · exact .ok trivial

theorem Typed.comp (h : Typed mk sch d) {n : Bytes} {k : Kind} {o : Obj G1 G2 GT} (hn : (n, k) ∈ names sch) (ho : k.Fits mk o)
    (h0 : o.clone = .ok o) : Fine (Typed mk sch) (Container.setComponent d n o) := by
  unfold Container.setComponent
  rw [h0]
  exact .ok (h.set hn ho)

theorem Typed.label (h : Typed mk sch d) {b u : Bytes} {k : Kind} {o : Obj G1 G2 GT} (hb : (b, k) ∈ families sch)
    (ho : k.Fits mk o) (h0 : o.clone = .ok o) : Fine (Typed mk sch) (Container.setComponent d (elementLabel b u) o) := by
  unfold Container.setComponent
  rw [h0]
  exact .ok (h.setLabel hb ho)

variable {q : Nat} [Fact q.Prime]
variable [AddCommGroup G1] [Module (ZMod q) G1] [AddCommGroup G2] [Module (ZMod q) G2] [AddCommGroup GT]
  [Module (ZMod q) GT]

/-! ## The bodies -/

theorem typed_cpParams (env : Env G1 G2 GT) (r : ParamRand q G1 G2) :
    Fine (fun pm : Container G1 G2 GT × Container G1 G2 GT => Typed mk .cp pm.1 ∧ Typed mk .cp pm.2) (cpParams env r) := by
  unfold cpParams
  simp only
  refine ((typed_nil (mk := mk) (sch := .cp)).comp (k := .g1) (by simp [names]) (by exact True.intro) (by rfl)).bind fun p hp => ?_
  refine (hp.comp (k := .g2) (by simp [names]) (by exact True.intro) (by rfl)).bind fun p hp => ?_
  refine (hp.comp (k := .g1) (by simp [names]) (by exact True.intro) (by rfl)).bind fun p hp => ?_
  refine (hp.comp (k := .gt) (by simp [names]) (by exact True.intro) (by rfl)).bind fun p hp => ?_
  refine (hp.comp (k := .bytes) (by simp [names]) (by exact True.intro) (by rfl)).bind fun p hp => ?_
  refine ((typed_nil (mk := mk) (sch := .cp)).comp (k := .zp) (by simp [names]) (by exact True.intro) (by rfl)).bind fun m hm => ?_
  exact (hm.comp (k := .g2) (by simp [names]) (by exact True.intro) (by rfl)).bind fun m hm => .ok ⟨hp, hm⟩

theorem typed_kpParams (env : Env G1 G2 GT) (r : ParamRand q G1 G2) :
    Fine (fun pm : Container G1 G2 GT × Container G1 G2 GT => Typed mk .kp pm.1 ∧ Typed mk .kp pm.2) (kpParams env r) := by
  unfold kpParams
  simp only
  refine ((typed_nil (mk := mk) (sch := .kp)).comp (k := .g1) (by simp [names]) (by exact True.intro) (by rfl)).bind fun p hp => ?_
  refine (hp.comp (k := .g2) (by simp [names]) (by exact True.intro) (by rfl)).bind fun p hp => ?_
  refine (hp.comp (k := .gt) (by simp [names]) (by exact True.intro) (by rfl)).bind fun p hp => ?_
  refine (hp.comp (k := .bytes) (by simp [names]) (by exact True.intro) (by rfl)).bind fun p hp => ?_
  exact ((typed_nil (mk := mk) (sch := .kp)).comp (k := .zp) (by simp [names]) (by exact True.intro) (by rfl)).bind fun m hm => .ok ⟨hp, hm⟩

theorem typed_cpKeyLoop (env : Env G1 G2 GT) {k : Option Bytes} (hk : k.isSome = true) (t : ZMod q) :
    ∀ (as : List Bytes) (d : Container G1 G2 GT), Typed mk .cp d → Fine (Typed mk .cp) (cpKeyLoop env k t as d)
  | [], d, h => .ok h
  | a :: as, d, h => by
    unfold cpKeyLoop
    refine (fine_deref hk).bind fun kb _ => ?_
    exact (h.label (k := .g1) (by simp [families]) (by exact True.intro) (by rfl)).bind fun d hd => typed_cpKeyLoop env hk t as d hd

theorem typed_kpEncLoop (env : Env G1 G2 GT) {k : Option Bytes} (hk : k.isSome = true) (t : ZMod q) :
    ∀ (as : List Bytes) (d : Container G1 G2 GT), Typed mk .kp d → Fine (Typed mk .kp) (kpEncLoop env k t as d)
  | [], d, h => .ok h
  | a :: as, d, h => by
    unfold kpEncLoop
    refine (fine_deref hk).bind fun kb _ => ?_
    exact (h.label (k := .g1) (by simp [families]) (by exact True.intro) (by rfl)).bind fun d hd => typed_kpEncLoop env hk t as d hd

/-- The component with this name has its type. -/
theorem Typed.at (h : Typed mk sch d) {n : Bytes} {k : Kind} (hn : (n, k) ∈ names sch) :
    ∀ o, SMap.find n d = some o → k.Fits mk o := fun o ho => h.name n k o hn ho

theorem Typed.atLabel (h : Typed mk sch d) {b : Bytes} {k : Kind} (u : Bytes) (hb : (b, k) ∈ families sch) :
    ∀ o, SMap.find (elementLabel b u) d = some o → k.Fits mk o := fun o ho => h.family b k u o hb ho

theorem typed_cpKeyBody (env : Env G1 G2 GT) (c : Ctx G1 G2 GT) (hr : c.ready = true) (mpk msk : Key G1 G2 GT)
    (hp : Typed mk .cp mpk.comps) (hs : Typed mk .cp msk.comps) (l : AttrList) (t : ZMod q) :
    Fine (Typed mk .cp) (Scheme.cpKeyBody env c mpk msk l t) := by
  unfold Scheme.cpKeyBody
  refine (fine_bytes (hp.at (by simp [names]))).bind fun k hk => ?_
  refine ((typed_nil (mk := mk) (sch := .cp)).comp (k := .attrs) (by simp [names]) (by exact True.intro) (by rfl)).bind fun d hd => ?_
  refine (fine_ready hr).bind fun _ _ => ?_
  refine (fine_zp (hs.at (by simp [names]))).bind fun a ha => (fine_deref ha).bind fun a _ => ?_
  refine (fine_g2 (hp.at (by simp [names]))).bind fun g hg => (fine_deref hg).bind fun g _ => ?_
  refine (fine_g2 (hs.at (by simp [names]))).bind fun g hg => (fine_deref hg).bind fun g _ => ?_
  refine (hd.comp (k := .g2) (by simp [names]) (by exact True.intro) (by rfl)).bind fun d hd => ?_
  refine (fine_g2 (hp.at (by simp [names]))).bind fun g hg => (fine_deref hg).bind fun g _ => ?_
  refine (hd.comp (k := .g2) (by simp [names]) (by exact True.intro) (by rfl)).bind fun d hd => ?_
  exact typed_cpKeyLoop env hk t _ d hd

theorem typed_kpKeyLoop (env : Env G1 G2 GT) (mpk : Key G1 G2 GT) (hp : Typed mk .kp mpk.comps) {k : Option Bytes}
    (hk : k.isSome = true) (r : Nat → ZMod q) : ∀ (rows : List (Bytes × (Bytes × ZMod q))) (i : Nat) (d : Container G1 G2 GT),
      Typed mk .kp d → Fine (Typed mk .kp) (Scheme.kpKeyLoop env mpk k r i rows d)
  | [], _, d, h => .ok h
  | row :: rows, i, d, h => by
    unfold Scheme.kpKeyLoop
    refine (fine_g1 (hp.at (by simp [names]))).bind fun g hg => (fine_deref hg).bind fun g _ => ?_
    refine (fine_deref hk).bind fun kb _ => ?_
    refine (fine_g2 (hp.at (by simp [names]))).bind fun g hg => (fine_deref hg).bind fun g _ => ?_
    refine (h.label (k := .g1) (by simp [families]) (by exact True.intro) (by rfl)).bind fun d hd => ?_
    exact (hd.label (k := .g2) (by simp [families]) (by exact True.intro) (by rfl)).bind fun d hd => typed_kpKeyLoop env mpk hp hk r rows _ d hd

/-- The policy came out of `createPolicyTree`. -/
def Accepted (mk : Mktime) (p : Policy) : Prop := ∃ s, createPolicyTree mk s = .ok (some p)

theorem Accepted.compact {p : Policy} (h : Accepted mk p) : createPolicyTree mk p.compact = .ok (some p) := by
  obtain ⟨s, h⟩ := h
  rw [(accepted_shape h).1]; exact h

theorem fine_share {p : Policy} (h : Accepted mk p) (x : ZMod q) (tape : Nat → ZMod q) :
    Fine (fun _ => True) (shareSecret false {} (some p) x tape) := by
  obtain ⟨s, h⟩ := h
  obtain ⟨-, t, hr, hao, -, -, hi⟩ := accepted_shape h
  obtain ⟨sh, n, e⟩ := share_any p t x tape hr hao hi
  rw [e]; exact .ok trivial

theorem fine_recover (S : StdSort) {s : Bytes} {p : Policy} (h : createPolicyTree mk s = .ok (some p)) (A : List Bytes) :
    Fine (fun _ => True) (recoverCoefficients (F := ZMod q) S false {} (some p) A) := by
  obtain ⟨-, t, hr, hao, hbin, hf, hi⟩ := accepted_shape h
  obtain ⟨o', p', e, -⟩ := C02_recover_iff_satisfied (F := ZMod q) S {} p t A hr hao hf (.inl hbin) hi
  rw [e]; exact .ok trivial

theorem typed_kpKeyBody (env : Env G1 G2 GT) (hnd : env.ndebug = false) (c : Ctx G1 G2 GT) (hr : c.ready = true)
    (mpk msk : Key G1 G2 GT) (hp : Typed mk .kp mpk.comps) (hs : Typed mk .kp msk.comps) (p : Policy) (ha : Accepted mk p)
    (tape r : Nat → ZMod q) : Fine (Typed mk .kp) (Scheme.kpKeyBody env c mpk msk p tape r) := by
  unfold Scheme.kpKeyBody
  refine (fine_bytes (hp.at (by simp [names]))).bind fun k hk => ?_
  refine ((typed_nil (mk := mk) (sch := .kp)).comp (k := .text) (by simp [names]) (by exact ⟨p, ha.compact⟩) (by rfl)).bind fun d hd => ?_
  refine (fine_zp (hs.at (by simp [names]))).bind fun a h => (fine_deref h).bind fun a _ => ?_
  rw [hnd]
  refine (fine_share ha _ tape).bind fun x _ => ?_
  obtain ⟨sh, n⟩ := x
  simp only
  cases sh.results with
  | nil => exact .ok hd
  | cons row rows =>
    simp only
    refine (fine_ready hr).bind fun _ _ => ?_
    exact typed_kpKeyLoop env mpk hp hk r _ _ d hd

theorem typed_cpEncLoop (env : Env G1 G2 GT) (mpk : Key G1 G2 GT) (hp : Typed mk .cp mpk.comps) {k : Option Bytes}
    (hk : k.isSome = true) (r : Nat → ZMod q) : ∀ (rows : List (Bytes × (Bytes × ZMod q))) (i : Nat) (d : Container G1 G2 GT),
      Typed mk .cp d → Fine (Typed mk .cp) (Scheme.cpEncLoop env mpk k r i rows d)
  | [], _, d, h => .ok h
  | row :: rows, i, d, h => by
    unfold Scheme.cpEncLoop
    refine (fine_g2 (hp.at (by simp [names]))).bind fun g hg => (fine_deref hg).bind fun g _ => ?_
    refine (h.label (k := .g2) (by simp [families]) (by exact True.intro) (by rfl)).bind fun d hd => ?_
    refine (fine_deref hk).bind fun kb _ => ?_
    refine (fine_g1 (hp.at (by simp [names]))).bind fun g hg => (fine_deref hg).bind fun g _ => ?_
    exact (hd.label (k := .g1) (by simp [families]) (by exact True.intro) (by rfl)).bind fun d hd => typed_cpEncLoop env mpk hp hk r rows _ d hd

theorem typed_cpEncBody (env : Env G1 G2 GT) (hnd : env.ndebug = false) (c : Ctx G1 G2 GT) (hr : c.ready = true)
    (mpk : Key G1 G2 GT) (hp : Typed mk .cp mpk.comps) (p : Policy) (ha : Accepted mk p) (len : Nat) (r : Rand q)
    (ct : Ciphertext G1 G2 GT) (hct : Typed mk .cp ct.comps) :
    Fine (fun x => Typed mk .cp x.2.comps) (Scheme.cpEncBody env c mpk p len r ct) := by
  unfold Scheme.cpEncBody
  refine (fine_bytes (hp.at (by simp [names]))).bind fun k hk => ?_
  refine (fine_ready hr).bind fun _ _ => ?_
  refine (fine_gt (hp.at (by simp [names]))).bind fun g hg => (fine_deref hg).bind fun g _ => ?_
  rw [hnd]
  refine (fine_share ha _ _).bind fun x _ => ?_
  obtain ⟨sh, n⟩ := x
  simp only
  refine (hct.comp (k := .text) (by simp [names]) (by exact ⟨p, ha.compact⟩) (by rfl)).bind fun d hd => ?_
  refine (fine_g1 (hp.at (by simp [names]))).bind fun g hg => (fine_deref hg).bind fun g _ => ?_
  refine (hd.comp (k := .g1) (by simp [names]) (by exact True.intro) (by rfl)).bind fun d hd => ?_
  refine (typed_cpEncLoop env mpk hp hk _ _ _ d hd).bind fun d hd => ?_
  exact (fine_symKey env _ len).bind fun _ _ => .ok hd

theorem typed_kpEncBody (env : Env G1 G2 GT) (c : Ctx G1 G2 GT) (hr : c.ready = true)
    (mpk : Key G1 G2 GT) (hp : Typed mk .kp mpk.comps) (l : AttrList) (len : Nat) (r : Rand q)
    (ct : Ciphertext G1 G2 GT) (hct : Typed mk .kp ct.comps) :
    Fine (fun x => Typed mk .kp x.2.comps) (Scheme.kpEncBody env c mpk l len r ct) := by
  unfold Scheme.kpEncBody
  refine (fine_bytes (hp.at (by simp [names]))).bind fun k hk => ?_
  refine (fine_ready hr).bind fun _ _ => ?_
  refine (fine_gt (hp.at (by simp [names]))).bind fun g hg => (fine_deref hg).bind fun g _ => ?_
  refine (fine_g2 (hp.at (by simp [names]))).bind fun g hg => (fine_deref hg).bind fun g _ => ?_
  refine (hct.comp (k := .g2) (by simp [names]) (by exact True.intro) (by rfl)).bind fun d hd => ?_
  refine (typed_kpEncLoop env hk _ _ d hd).bind fun d hd => ?_
  refine (hd.comp (k := .attrs) (by simp [names]) (by exact True.intro) (by rfl)).bind fun d hd => ?_
  exact (fine_symKey env _ len).bind fun _ _ => .ok hd

theorem fine_cpDecLoop (env : Env G1 G2 GT) (key ct : Container G1 G2 GT) (hk : Typed mk .cp key) (hc : Typed mk .cp ct) :
    ∀ (rows : List (Bytes × (Bytes × ZMod q))) (p : G1) (l : List (G1 × G2)),
      Fine (fun _ => True) (Scheme.cpDecLoop env key ct rows p l)
  | [], _, _ => .ok trivial
  | row :: rows, p, l => by
    unfold Scheme.cpDecLoop
    refine (fine_g1 (hk.atLabel _ (by simp [families]))).bind fun a ha => ?_
    refine (fine_g1 (hc.atLabel _ (by simp [families]))).bind fun b _ => (fine_notNull b).bind fun b _ => ?_
    refine (fine_g2 (hc.atLabel _ (by simp [families]))).bind fun b _ => (fine_notNull b).bind fun b _ => ?_
    refine (fine_deref ha).bind fun a _ => ?_
    exact fine_cpDecLoop env key ct hk hc rows _ _

theorem fine_kpDecLoop (env : Env G1 G2 GT) (key ct : Container G1 G2 GT) (hk : Typed mk .kp key) (hc : Typed mk .kp ct) :
    ∀ (rows : List (Bytes × (Bytes × ZMod q))) (p : G1) (l : List (G1 × G2)),
      Fine (fun _ => True) (Scheme.kpDecLoop env key ct rows p l)
  | [], _, _ => .ok trivial
  | row :: rows, p, l => by
    unfold Scheme.kpDecLoop
    refine (fine_g1 (hc.atLabel _ (by simp [families]))).bind fun a ha => ?_
    refine (fine_g2 (hk.atLabel _ (by simp [families]))).bind fun b hb => ?_
    refine (fine_g1 (hk.atLabel _ (by simp [families]))).bind fun e he => (fine_deref he).bind fun e _ => ?_
    refine (fine_deref ha).bind fun a _ => (fine_deref hb).bind fun b _ => ?_
    exact fine_kpDecLoop env key ct hk hc rows _ _

theorem fine_multi (env : Env G1 G2 GT) (l : List (G1 × G2)) : Fine (fun _ => True) (multiPairing env l) := by
  unfold multiPairing
  split
  · exact .throw (by simp) (by simp)
  · exact .ok trivial

theorem fine_cpDecBody (env : Env G1 G2 GT) (hnd : env.ndebug = false) (c : Ctx G1 G2 GT) (hr : c.ready = true)
    (key ct : Container G1 G2 GT) (hk : Typed env.mktime .cp key) (hc : Typed env.mktime .cp ct) (len : Nat) :
    Fine (fun _ => True) (Scheme.cpDecBody q env c key ct len) := by
  unfold Scheme.cpDecBody
  refine (fine_get (hk.at (k := .attrs) (by simp [names]))).bind fun inp hi => ?_
  refine (fine_text (hc.at (by simp [names]))).bind fun o ho => ?_
  obtain ⟨s, p, rfl, hp⟩ := ho
  simp only [notNull, Res.ok_bind, hp]
  obtain ⟨al, rfl⟩ : ∃ al, inp = .attrs al := by cases inp <;> simp_all [Kind.Fits]
  simp only [castAttrs, Res.ok_bind, hnd]
  refine (fine_recover env.sort hp _).bind fun x _ => ?_
  obtain ⟨good, o, p'⟩ := x
  simp only
  split
  · exact .throw (by simp) (by simp)
  · refine (fine_cpDecLoop env key ct hk hc _ _ _).bind fun x _ => ?_
    obtain ⟨a, l⟩ := x
    simp only
    refine (fine_ready hr).bind fun _ _ => (fine_multi env l).bind fun _ _ => ?_
    refine (fine_g1 (hc.at (by simp [names]))).bind fun a _ => ?_
    refine (fine_g2 (hk.at (by simp [names]))).bind fun b _ => ?_
    refine (fine_g2 (hk.at (by simp [names]))).bind fun e _ => ?_
    exact (fine_notNull a).bind fun _ _ => (fine_notNull b).bind fun _ _ => (fine_notNull e).bind fun _ _ => fine_symKey env _ len

theorem fine_kpDecBody (env : Env G1 G2 GT) (hnd : env.ndebug = false) (c : Ctx G1 G2 GT) (hr : c.ready = true)
    (key ct : Container G1 G2 GT) (hk : Typed env.mktime .kp key) (hc : Typed env.mktime .kp ct) (len : Nat) :
    Fine (fun _ => True) (Scheme.kpDecBody q env c key ct len) := by
  unfold Scheme.kpDecBody
  refine (fine_text (hk.at (by simp [names]))).bind fun o ho => ?_
  obtain ⟨s, p, rfl, hp⟩ := ho
  simp only [notNull, Res.ok_bind, hp]
  refine (fine_get (hc.at (k := .attrs) (by simp [names]))).bind fun inp hi => ?_
  obtain ⟨al, rfl⟩ : ∃ al, inp = .attrs al := by cases inp <;> simp_all [Kind.Fits]
  simp only [castAttrs, Res.ok_bind, hnd]
  refine (fine_recover env.sort hp _).bind fun x _ => ?_
  obtain ⟨good, o, p'⟩ := x
  simp only
  split
  · exact .throw (by simp) (by simp)
  · refine (fine_kpDecLoop env key ct hk hc _ _ _).bind fun x _ => ?_
    obtain ⟨a, l⟩ := x
    simp only
    refine (fine_ready hr).bind fun _ _ => (fine_multi env l).bind fun _ _ => ?_
    refine (fine_g2 (hc.at (by simp [names]))).bind fun a _ => ?_
    exact (fine_notNull a).bind fun _ _ => fine_symKey env _ len

theorem fine_plainOf (env : Env G1 G2 GT) (hnd : env.ndebug = false) (hmd : ∀ x, (env.md x).length = 32) (c : Ctx G1 G2 GT)
    (hr : c.ready = true) (key ct : Container G1 G2 GT) (hk : Typed env.mktime sch key) (hc : Typed env.mktime sch ct) :
    Fine (fun _ => True) (plainOf q env sch c key ct) := by
  have hx : ∀ K enc : Bytes, Fine (fun _ => True) (BS.xorAssign enc (hashFromBytes env.md K enc.length schemeHashPrefix)) := by
    intro K enc
    obtain ⟨x, h, -⟩ := mask_xor hmd K enc
    rw [h]; exact .ok trivial
  unfold plainOf
  cases sch
  · refine (fine_cpDecBody env hnd c hr key ct hk hc _).bind fun K _ => ?_
    exact (fine_bytes (hc.at (by simp [names]))).bind fun o _ => (fine_notNull o).bind fun enc _ => hx K enc
  · refine (fine_kpDecBody env hnd c hr key ct hk hc _).bind fun K _ => ?_
    exact (fine_bytes (hc.at (by simp [names]))).bind fun o _ => (fine_notNull o).bind fun enc _ => hx K enc

/-! ## The calls -/

/-- All keys of the store have the property. -/
structure AllKeys (P : Key G1 G2 GT → Prop) (k : KeyStore (Key G1 G2 GT)) : Prop where
  pub : ∀ id x, SMap.find id k.pub = some (some x) → P x
  sec : ∀ id x, SMap.find id k.sec = some (some x) → P x

variable {P : Key G1 G2 GT → Prop} {k : KeyStore (Key G1 G2 GT)}

theorem AllKeys.imp {Q : Key G1 G2 GT → Prop} (h : AllKeys P k) (hq : ∀ x, P x → Q x) : AllKeys Q k :=
  ⟨fun j x e => hq x (h.pub j x e), fun j x e => hq x (h.sec j x e)⟩

theorem AllKeys.getPublicKey (h : AllKeys P k) (id : Bytes) : AllKeys P (k.getPublicKey id).2 :=
  ⟨fun j x e => h.pub j x (find_touch e), h.sec⟩

theorem AllKeys.getSecretKey (h : AllKeys P k) (id : Bytes) : AllKeys P (k.getSecretKey id).2 :=
  ⟨h.pub, fun j x e => h.sec j x (find_touch e)⟩

theorem AllKeys.getKey (h : AllKeys P k) (id : Bytes) : AllKeys P (k.getKey id).2 := by
  unfold KeyStore.getKey
  simp only
  cases (k.getPublicKey id).1 with
  | none => exact (h.getPublicKey id).getSecretKey id
  | some x => exact h.getPublicKey id

theorem AllKeys.addKey (h : AllKeys P k) (id : Bytes) {x : Key G1 G2 GT} (hx : P x) (kind : KeyKind) :
    AllKeys P (k.addKey id x kind) := by
  cases kind with
  | pub =>
    refine ⟨fun j y e => ?_, h.sec⟩
    simp only [KeyStore.addKey, SMap.find_insert] at e
    split at e
    · cases e; exact hx
    · exact h.pub j y e
  | sec =>
    refine ⟨h.pub, fun j y e => ?_⟩
    simp only [KeyStore.addKey, SMap.find_insert] at e
    split at e
    · cases e; exact hx
    · exact h.sec j y e
  | other => exact h

theorem AllKeys.deleteKey (h : AllKeys P k) (id : Bytes) : AllKeys P (k.deleteKey id).2 := by
  have hk := h.getKey id
  have he : AllKeys P ⟨SMap.erase id (k.getKey id).2.pub, SMap.erase id (k.getKey id).2.sec⟩ := by
    refine ⟨fun j x e => ?_, fun j x e => ?_⟩
    · simp only [SMap.find_erase] at e
      split at e
      · simp at e
      · exact hk.pub j x e
    · simp only [SMap.find_erase] at e
      split at e
      · simp at e
      · exact hk.sec j x e
  unfold KeyStore.deleteKey
  simp only
  cases (k.getKey id).1 with
  | none => exact hk
  | some x =>
    simp only
    split <;> exact he

/-- Every component of every stored key and of every ciphertext has its type; keys only exist once there is a pairing
object. -/
structure Sound (mk : Mktime) (sch : Scheme) (w : World G1 G2 GT) : Prop where
  keys : AllKeys (fun x => w.ctx.ready = true ∧ Typed mk sch x.comps) w.ctx.ks
  cts : ∀ j, Typed mk sch (w.cts j).comps

/-- The policies of the input were made by the parser. -/
def InputOk (mk : Mktime) : FInput → Prop
  | .policy p => Accepted mk p
  | _ => True

/-- Inputs made by the parser, and bytes whose components have their types. -/
def Careful (env : Env G1 G2 GT) (cd : Codec G1 G2 GT) (sch : Scheme) : Call q G1 G2 → Prop
  | .keygen input _ _ _ _ => InputOk env.mktime input
  | .encrypt _ _ input _ _ => InputOk env.mktime input
  | .loadKey _ blob rnd _ => ∀ k body, (Key.parseHeader blob rnd : Res (Key G1 G2 GT × Bytes)) = .ok (k, body) →
      (k.loadBody env.mktime cd body).Defined ∧ ∀ k1, k.loadBody env.mktime cd body = .ok k1 → Typed env.mktime sch k1.comps
  | .loadCt _ blob => (Ciphertext.load env.mktime cd ({} : Ciphertext G1 G2 GT) blob).Defined ∧
      ∀ ct : Ciphertext G1 G2 GT, Ciphertext.load env.mktime cd {} blob = .ok ct → Typed env.mktime sch ct.comps
  | _ => True

variable {w : World G1 G2 GT} {env : Env G1 G2 GT} {cd : Codec G1 G2 GT}

theorem setCt_typed (h : ∀ j, Typed mk sch (w.cts j).comps) (j : Nat) {a : Ciphertext G1 G2 GT} (ha : Typed mk sch a.comps) (i : Nat) :
    Typed mk sch (setCt w.cts j a i).comps := by
  unfold setCt
  split
  · exact ha
  · exact h i

theorem params_sound (h : Sound mk sch w) (mpkID mskID : Bytes) (r : ParamRand q G1 G2) :
    ∃ x, generateParams env sch w.ctx mpkID mskID r = .ok x ∧ x.2.ready = true ∧
      AllKeys (fun y => x.2.ready = true ∧ Typed mk sch y.comps) x.2.ks := by
  have h1 := h.keys.imp (Q := fun y => true = true ∧ Typed mk sch y.comps) fun x hx => ⟨rfl, hx.2⟩
  unfold generateParams
  simp only
  split
  · exact ⟨_, rfl, rfl, h1.getKey _⟩
  · split
    · exact ⟨_, rfl, rfl, (h1.getKey _).getKey _⟩
    · have h2 := (h1.getKey mpkID).getKey mskID
      cases sch with
      | cp =>
        have := typed_cpParams (mk := mk) env r
        cases e : cpParams env r with
        | ok pm =>
          rw [e] at this
          cases this with
          | ok ht =>
            exact ⟨_, rfl, rfl, (h2.addKey mpkID (x := newKey w.ctx.alg mpkID r.uid1 pm.1) ⟨rfl, ht.1⟩ .pub).addKey mskID
              (x := newKey w.ctx.alg mskID r.uid2 pm.2) ⟨rfl, ht.2⟩ .sec⟩
        | _ => exact absurd e (by simp [cpParams, Container.setComponent, Obj.clone])
      | kp =>
        have := typed_kpParams (mk := mk) env r
        cases e : kpParams env r with
        | ok pm =>
          rw [e] at this
          cases this with
          | ok ht =>
            exact ⟨_, rfl, rfl, (h2.addKey mpkID (x := newKey w.ctx.alg mpkID r.uid1 pm.1) ⟨rfl, ht.1⟩ .pub).addKey mskID
              (x := newKey w.ctx.alg mskID r.uid2 pm.2) ⟨rfl, ht.2⟩ .sec⟩
        | _ => exact absurd e (by simp [kpParams, Container.setComponent, Obj.clone])

theorem keygen_sound (hnd : env.ndebug = false) (h : Sound env.mktime sch w) (input : FInput) (hi : InputOk env.mktime input)
    (keyID mpkID mskID : Bytes) (r : Rand q) :
    ∃ x, Scheme.generateKey env sch w.ctx input keyID mpkID mskID r = .ok x ∧ x.2.ready = w.ctx.ready ∧
      AllKeys (fun y => w.ctx.ready = true ∧ Typed env.mktime sch y.comps) x.2.ks := by
  by_cases hg : (sch = .cp ∧ ∃ l, input = .attrs l) ∨ (sch = .kp ∧ ∃ p, input = .policy p)
  · rw [generateKey_good env sch input keyID mpkID mskID r hg]
    simp only
    have h2 := (h.keys.getPublicKey mpkID).getSecretKey mskID
    cases ep : (w.ctx.ks.getPublicKey mpkID).1 with
    | none => exact ⟨_, rfl, rfl, h2⟩
    | some mpk =>
      cases es : ((w.ctx.ks.getPublicKey mpkID).2.getSecretKey mskID).1 with
      | none => exact ⟨_, rfl, rfl, h2⟩
      | some msk =>
        simp only
        have hp := h.keys.pub _ _ (find_of_pub ep).1
        have hs := (h.keys.getPublicKey mpkID).sec _ _ (find_of_sec es).1
        have hf : Fine (Typed env.mktime sch) (keyOf env sch w.ctx input r mpk msk) := by
          rcases hg with ⟨rfl, l, rfl⟩ | ⟨rfl, p, rfl⟩
          · exact typed_cpKeyBody env w.ctx hp.1 mpk msk hp.2 hs.2 l _
          · exact typed_kpKeyBody env hnd w.ctx hp.1 mpk msk hp.2 hs.2 p hi _ _
        rcases hf.caught with ⟨a, ha, e⟩ | ⟨e', e⟩
        · rw [e]
          exact ⟨_, rfl, rfl, h2.addKey keyID (x := newKey w.ctx.alg keyID r.uid a) ⟨hp.1, ha⟩ .sec⟩
        · rw [e]; exact ⟨_, rfl, rfl, h2⟩
  · unfold Scheme.generateKey
    cases sch <;> cases input <;> first
      | exact ⟨_, rfl, rfl, h.keys⟩
      | simp at hg

theorem encrypt_sound (hnd : env.ndebug = false) (hmd : ∀ x, (env.md x).length = 32) (h : Sound env.mktime sch w) (input : FInput)
    (hi : InputOk env.mktime input) (mpkID plaintext : Bytes) (r : Rand q) :
    ∃ x, Scheme.encrypt env sch w.ctx mpkID input plaintext r {} = .ok x ∧ x.2.ready = w.ctx.ready ∧
      AllKeys (fun y => w.ctx.ready = true ∧ Typed env.mktime sch y.comps) x.2.ks ∧
      ∀ ct, x.1 = .ok ct → Typed env.mktime sch ct.comps := by
  by_cases hg : (sch = .kp ∧ ∃ l, input = .attrs l) ∨ (sch = .cp ∧ ∃ p, input = .policy p)
  · rw [encrypt_good env sch input mpkID plaintext r {} hg]
    simp only
    have h2 := h.keys.getPublicKey mpkID
    cases ep : (w.ctx.ks.getPublicKey mpkID).1 with
    | none => exact ⟨_, rfl, rfl, h2, by simp⟩
    | some mpk =>
      simp only
      have hp := h.keys.pub _ _ (find_of_pub ep).1
      have hf : Fine (fun x => Typed env.mktime sch x.2.comps) (encOf env sch w.ctx input r {} mpk) := by
        rcases hg with ⟨rfl, l, rfl⟩ | ⟨rfl, p, rfl⟩
        · exact typed_kpEncBody env w.ctx hp.1 mpk hp.2 l _ _ _ typed_nil
        · exact typed_cpEncBody env hnd w.ctx hp.1 mpk hp.2 p hi _ _ _ typed_nil
      rcases hf.caught with ⟨a, ha, e⟩ | ⟨e', e⟩
      · rw [e]
        obtain ⟨K, ct1⟩ := a
        obtain ⟨x, hx, -⟩ := mask_xor hmd K plaintext
        simp only [Res.ok_bind, hx, Container.setComponent, Obj.clone]
        refine ⟨_, rfl, rfl, h2, fun ct hc => ?_⟩
        cases hc
        exact ha.set (k := .bytes) (by cases sch <;> simp [names]) trivial
      · rw [e]; exact ⟨_, rfl, rfl, h2, by simp⟩
  · unfold Scheme.encrypt Scheme.encryptKEM
    cases sch <;> cases input <;> first
      | exact ⟨_, rfl, rfl, h.keys, by simp⟩
      | simp at hg

/-- Decryption on values: look up the key, compute the plaintext, report what was caught. -/
theorem decrypt_value (env : Env G1 G2 GT) (sch : Scheme) (c : Ctx G1 G2 GT) (keyID : Bytes) (ct : Ciphertext G1 G2 GT) :
    Scheme.decrypt q env sch c keyID ct = (do
      let sk := c.ks.getSecretKey keyID
      match sk.1 with
      | none => .ok (some .invalidInput, [], { c with ks := sk.2 })
      | some key =>
        match ← caught (plainOf q env sch c key.comps ct.comps) with
        | .error e => .ok (some e, [], { c with ks := sk.2 })
        | .ok p => .ok (none, p, { c with ks := sk.2 })) := by
  unfold Scheme.decrypt Scheme.decryptKEM plainOf
  simp only
  cases (c.ks.getSecretKey keyID).1 with
  | none => rfl
  | some key =>
    cases sch <;> simp only
    · rcases caught_cases (Scheme.cpDecBody q env c key.comps ct.comps symKeyBytes) with
        ⟨a, e, k⟩ | ⟨e, e', k⟩ | ⟨e, e', h1, k⟩ | ⟨e, k⟩ | ⟨e, k⟩
      · rw [k, e]; rfl
      · rw [k, e']
        rw [e'] at k
        cases e <;> rfl
      · rw [k, e']
        rcases h1 with rfl | rfl <;> rfl
      · rw [k, e]; rfl
      · rw [k, e]; rfl
    · rcases caught_cases (Scheme.kpDecBody q env c key.comps ct.comps symKeyBytes) with
        ⟨a, e, k⟩ | ⟨e, e', k⟩ | ⟨e, e', h1, k⟩ | ⟨e, k⟩ | ⟨e, k⟩
      · rw [k, e]; rfl
      · rw [k, e']
        rw [e'] at k
        cases e <;> rfl
      · rw [k, e']
        rcases h1 with rfl | rfl <;> rfl
      · rw [k, e]; rfl
      · rw [k, e]; rfl

theorem decrypt_sound (hnd : env.ndebug = false) (hmd : ∀ x, (env.md x).length = 32) (h : Sound env.mktime sch w) (keyID : Bytes) (j : Nat) :
    ∃ x, Scheme.decrypt q env sch w.ctx keyID (w.cts j) = .ok x ∧ x.2.2.ready = w.ctx.ready ∧
      AllKeys (fun y => w.ctx.ready = true ∧ Typed env.mktime sch y.comps) x.2.2.ks := by
  rw [decrypt_value]
  simp only
  have h2 := h.keys.getSecretKey keyID
  cases es : (w.ctx.ks.getSecretKey keyID).1 with
  | none => exact ⟨_, rfl, rfl, h2⟩
  | some key =>
    simp only
    have hk := h.keys.sec _ _ (find_of_sec es).1
    rcases (fine_plainOf (q := q) env hnd hmd w.ctx hk.1 _ _ hk.2 (h.cts j)).caught with ⟨a, -, e⟩ | ⟨e', e⟩ <;> rw [e] <;>
      exact ⟨_, rfl, rfl, h2⟩

theorem parseHeader_defined (blob rnd : Bytes) : (Key.parseHeader blob rnd : Res (Key G1 G2 GT × Bytes)).Defined := by
  unfold Key.parseHeader Key.construct
  simp only
  refine Res.defined_bind _ _ ?_ fun r _ => by cases r <;> exact trivial
  split
  · trivial
  · refine Res.defined_bind _ _ (BS.unpack_defined _ _) fun x _ => ?_
    obtain ⟨hdr, i⟩ := x
    simp only
    split
    · refine Res.defined_bind _ _ (BS.atR_defined _ _) fun v _ => ?_
      split
      · trivial
      · refine Res.defined_bind _ _ (BS.atR_defined _ _) fun v _ => ?_
        split
        · refine Res.defined_bind _ _ (BS.unpack_defined _ _) fun x _ => ?_
          trivial
        · trivial
    · trivial

theorem getHashKey_defined (mpkID : Bytes) : (Cpa.getHashKey w.ctx mpkID).Defined := by
  unfold Cpa.getHashKey
  simp only
  cases (w.ctx.ks.getPublicKey mpkID).1 with
  | none => trivial
  | some mpk =>
    simp only [getBytes]
    refine Res.defined_bind _ _ (Res.defined_bind _ _ ?_ fun _ _ => trivial) fun _ _ => trivial
    unfold Container.getComponent
    cases SMap.find b!"k" mpk.comps with
    | none => trivial
    | some o => cases o <;> trivial

/-- A careful call on values keeps the types. -/
theorem valueStep_sound (hnd : env.ndebug = false) (hmd : ∀ x, (env.md x).length = 32) (h : Sound env.mktime sch w)
    (call : Call q G1 G2) (hc : Careful env cd sch call) : Sound env.mktime sch (valueStep env cd sch w call).2 := by
  cases call with
  | params mpkID mskID r =>
    obtain ⟨x, e, h1, h2⟩ := params_sound (env := env) h mpkID mskID r
    simp only [valueStep, e, after]
    exact ⟨h2, h.cts⟩
  | keygen input keyID mpkID mskID r =>
    obtain ⟨x, e, h1, h2⟩ := keygen_sound hnd h input hc keyID mpkID mskID r
    simp only [valueStep, e, after]
    exact ⟨h2.imp fun y hy => ⟨h1.trans hy.1, hy.2⟩, h.cts⟩
  | encrypt j mpkID input plaintext r =>
    obtain ⟨⟨x, c⟩, e, h1, h2, h3⟩ := encrypt_sound hnd hmd h input hc mpkID plaintext r
    simp only [valueStep, e, after]
    have h2' := h2.imp fun y hy => And.intro (h1.trans hy.1) hy.2
    cases x with
    | ok ct => exact ⟨h2', setCt_typed h.cts j (h3 ct rfl)⟩
    | error e => exact ⟨h2', h.cts⟩
  | decrypt keyID j =>
    obtain ⟨x, e, h1, h2⟩ := decrypt_sound (q := q) hnd hmd h keyID j
    simp only [valueStep, e, after]
    exact ⟨h2.imp fun y hy => ⟨h1.trans hy.1, hy.2⟩, h.cts⟩
  | hashKey mpkID =>
    have h2 : Sound env.mktime sch { w with ctx := { w.ctx with ks := (w.ctx.ks.getPublicKey mpkID).2 } } :=
      ⟨h.keys.getPublicKey mpkID, h.cts⟩
    simp only [valueStep, Cpa.getHashKey]
    cases (w.ctx.ks.getPublicKey mpkID).1 with
    | none => exact h2
    | some mpk =>
      simp only
      cases getBytes mpk.comps b!"k" <;> exact h2
  | exportKey id =>
    have h2 : Sound env.mktime sch { w with ctx := { w.ctx with ks := (w.ctx.ks.getKey id).2 } } := ⟨h.keys.getKey id, h.cts⟩
    simp only [valueStep, Cpa.exportKey]
    cases (w.ctx.ks.getKey id).1 with
    | none => exact h2
    | some k =>
      simp only
      rcases caught_cases (k.exportBytes cd) with ⟨a, e, q⟩ | ⟨e, e', q⟩ | ⟨e, e', _, q⟩ | ⟨e, q⟩ | ⟨e, q⟩ <;> rw [q] <;> exact h2
  | loadKey id blob rnd kind =>
    have h1 : Sound env.mktime sch { w with ctx := { w.ctx with ready := true } } :=
      ⟨h.keys.imp fun x hx => ⟨rfl, hx.2⟩, h.cts⟩
    simp only [valueStep, Cpa.loadKey]
    simp only [Careful] at hc
    revert hc
    cases (Key.parseHeader blob rnd : Res (Key G1 G2 GT × Bytes)) with
    | ok x =>
      obtain ⟨k, body⟩ := x
      intro hc
      simp only [Res.ok_bind]
      split
      · exact h1
      · have := (hc k body rfl).2
        cases e1 : k.loadBody env.mktime cd body with
        | ok k1 => exact ⟨h1.keys.addKey id (x := k1) ⟨rfl, this k1 e1⟩ kind, h.cts⟩
        | _ => exact h1
    | _ => exact fun _ => h
  | deleteKey id => exact ⟨h.keys.deleteKey id, h.cts⟩
  | check id => exact h
  | exportCt j =>
    simp only [valueStep]
    cases (w.cts j).exportBytes cd <;> exact h
  | loadCt j blob =>
    simp only [valueStep]
    simp only [Careful] at hc
    revert hc
    cases (Ciphertext.load env.mktime cd {} blob : Res (Ciphertext G1 G2 GT)) with
    | ok ct => exact fun hc => ⟨h.keys, setCt_typed h.cts j (hc.2 ct rfl)⟩
    | _ => exact fun _ => h

theorem valueRun_sound (hnd : env.ndebug = false) (hmd : ∀ x, (env.md x).length = 32) :
    ∀ (cs : List (Call q G1 G2)) (w : World G1 G2 GT), Sound env.mktime sch w → (∀ c ∈ cs, Careful env cd sch c) →
      Sound env.mktime sch (valueRun env cd sch w cs)
  | [], _, h, _ => h
  | c :: cs, _, h, hc => valueRun_sound hnd hmd cs _ (valueStep_sound hnd hmd h c (hc c List.mem_cons_self))
      fun c' h' => hc c' (List.mem_cons_of_mem _ h')

end Live
end Abe
