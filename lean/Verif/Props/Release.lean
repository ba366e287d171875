import Verif.Proof.Scheme
import Verif.Proof.KeyMgr
import Verif.Props.Scheme
/-!
# What compiling the assertions out changes in the schemes (C165)

zlsss.cpp:264 assigns the threshold of a gate inside `assert`, so a release build shares with threshold zero. The
theorems say what this does to every call of the two schemes: which calls answer the same in both builds, and what the
others do.
-/
set_option linter.unusedSimpArgs false
set_option linter.unusedSectionVars false
set_option autoImplicit false
namespace Abe
open Scheme

variable {q : Nat} [Fact q.Prime] {G1 G2 GT : Type}
variable [AddCommGroup G1] [Module (ZMod q) G1] [AddCommGroup G2] [Module (ZMod q) G2] [AddCommGroup GT]
  [Module (ZMod q) GT]

/-- The same environment, built with `NDEBUG`. -/
def Env.release (env : Env G1 G2 GT) : Env G1 G2 GT := { env with ndebug := true }
/-- The same environment, built with assertions. -/
def Env.checked (env : Env G1 G2 GT) : Env G1 G2 GT := { env with ndebug := false }

/-- The policy is one attribute: there is no gate. -/
def Policy.Single (p : Policy) : Prop := ∃ fl pre lab idx, p.root = some (.leaf fl pre lab idx)

theorem share_single {p : Policy} (h : p.Single) (s : ZMod q) (tape : Nat → ZMod q) :
    shareSecret true {} (some p) s tape = shareSecret false {} (some p) s tape := by
  obtain ⟨fl, pre, lab, idx, h⟩ := h
  simp only [shareSecret, h, TNode.size, shareLoop]

theorem share_gate {p : Policy} (h : ¬ p.Single) (s : ZMod q) (tape : Nat → ZMod q) :
    shareSecret true {} (some p) s tape = .ub := by
  unfold shareSecret
  cases hr : p.root with
  | none => simp [hr]
  | some t =>
    cases t with
    | leaf fl pre lab idx => exact absurd ⟨fl, pre, lab, idx, hr⟩ h
    | gate fl ty thr subs =>
      have e : (TNode.gate fl ty thr subs).size = sizeL subs + 1 := by simp only [TNode.size]; omega
      simp only [hr, e, shareLoop, if_true]

theorem recover_builds (S : StdSort) {mk : Mktime} {s : Bytes} {pol : Option Policy} (h : createPolicyTree mk s = .ok pol)
    (A : List Bytes) :
    recoverCoefficients (F := ZMod q) S true {} pol A = recoverCoefficients S false {} pol A := by
  cases pol with
  | none => rfl
  | some p =>
    obtain ⟨t, ht, _⟩ := createPolicyTree_ready h
    simp only [recoverCoefficients, ht]

theorem cpEncLoop_builds (env : Env G1 G2 GT) (mpk : Key G1 G2 GT) (k : Option Bytes) (r : Nat → ZMod q) :
    ∀ (rows : List (Bytes × (Bytes × ZMod q))) (i : Nat) (d : Container G1 G2 GT),
    cpEncLoop env.release mpk k r i rows d = cpEncLoop env.checked mpk k r i rows d
  | [], _, _ => rfl
  | row :: rows, i, d => by
    simp only [cpEncLoop, cpEncLoop_builds env mpk k r rows]
    rfl

theorem kpEncLoop_builds (env : Env G1 G2 GT) (k : Option Bytes) (t : ZMod q) :
    ∀ (as : List Bytes) (d : Container G1 G2 GT),
    kpEncLoop env.release k t as d = kpEncLoop env.checked k t as d
  | [], _ => rfl
  | a :: as, d => by
    simp only [kpEncLoop, kpEncLoop_builds env k t as]
    rfl

theorem cpKeyLoop_builds (env : Env G1 G2 GT) (k : Option Bytes) (t : ZMod q) :
    ∀ (as : List Bytes) (d : Container G1 G2 GT),
    cpKeyLoop env.release k t as d = cpKeyLoop env.checked k t as d
  | [], _ => rfl
  | a :: as, d => by
    simp only [cpKeyLoop, cpKeyLoop_builds env k t as]
    rfl

theorem kpKeyLoop_builds (env : Env G1 G2 GT) (mpk : Key G1 G2 GT) (k : Option Bytes) (r : Nat → ZMod q) :
    ∀ (rows : List (Bytes × (Bytes × ZMod q))) (i : Nat) (d : Container G1 G2 GT),
    kpKeyLoop env.release mpk k r i rows d = kpKeyLoop env.checked mpk k r i rows d
  | [], _, _ => rfl
  | row :: rows, i, d => by
    simp only [kpKeyLoop, kpKeyLoop_builds env mpk k r rows]
    rfl

theorem cpDecLoop_builds (env : Env G1 G2 GT) (key ct : Container G1 G2 GT) :
    ∀ (rows : List (Bytes × (Bytes × ZMod q))) (p : G1) (l : List (G1 × G2)),
    cpDecLoop env.release key ct rows p l = cpDecLoop env.checked key ct rows p l
  | [], _, _ => rfl
  | row :: rows, p, l => by
    simp only [cpDecLoop, cpDecLoop_builds env key ct rows]
    rfl

theorem kpDecLoop_builds (env : Env G1 G2 GT) (key ct : Container G1 G2 GT) :
    ∀ (rows : List (Bytes × (Bytes × ZMod q))) (p : G1) (l : List (G1 × G2)),
    kpDecLoop env.release key ct rows p l = kpDecLoop env.checked key ct rows p l
  | [], _, _ => rfl
  | row :: rows, p, l => by
    simp only [kpDecLoop, kpDecLoop_builds env key ct rows]
    rfl

theorem bind_builds {α β : Type} (x : Res α) {f g : α → Res β} (h : ∀ a, x = .ok a → f a = g a) : (x >>= f) = (x >>= g) := by
  cases x with
  | ok a => exact h a rfl
  | throw e => rfl
  | ub => rfl
  | abort => rfl

theorem cpDecBody_builds (env : Env G1 G2 GT) (c : Ctx G1 G2 GT) (key ct : Container G1 G2 GT) (len : Nat) :
    cpDecBody q env.release c key ct len = cpDecBody q env.checked c key ct len := by
  unfold cpDecBody
  refine bind_builds _ fun inp _ => bind_builds _ fun tb _ => bind_builds _ fun text _ => ?_
  refine bind_builds (createPolicyTree env.mktime text) fun pol hp => bind_builds _ fun attrs _ => ?_
  have := recover_builds (q := q) env.sort hp attrs.attrs
  show (recoverCoefficients (F := ZMod q) env.sort true {} pol attrs.attrs >>= _) =
    (recoverCoefficients (F := ZMod q) env.sort false {} pol attrs.attrs >>= _)
  rw [this]
  refine bind_builds _ fun x _ => ?_
  obtain ⟨good, o, _⟩ := x
  dsimp only
  rw [cpDecLoop_builds]
  rfl

theorem kpDecBody_builds (env : Env G1 G2 GT) (c : Ctx G1 G2 GT) (key ct : Container G1 G2 GT) (len : Nat) :
    kpDecBody q env.release c key ct len = kpDecBody q env.checked c key ct len := by
  unfold kpDecBody
  refine bind_builds _ fun tb _ => bind_builds _ fun text _ => ?_
  refine bind_builds (createPolicyTree env.mktime text) fun pol hp => bind_builds _ fun inp _ => bind_builds _ fun attrs _ => ?_
  have := recover_builds (q := q) env.sort hp attrs.attrs
  show (recoverCoefficients (F := ZMod q) env.sort true {} pol attrs.attrs >>= _) =
    (recoverCoefficients (F := ZMod q) env.sort false {} pol attrs.attrs >>= _)
  rw [this]
  refine bind_builds _ fun x _ => ?_
  obtain ⟨good, o, _⟩ := x
  dsimp only
  rw [kpDecLoop_builds]
  rfl

theorem kpEncBody_builds (env : Env G1 G2 GT) (c : Ctx G1 G2 GT) (mpk : Key G1 G2 GT) (l : AttrList) (len : Nat)
    (r : Rand q) (ct : Ciphertext G1 G2 GT) :
    kpEncBody env.release c mpk l len r ct = kpEncBody env.checked c mpk l len r ct := by
  unfold kpEncBody
  simp only [kpEncLoop_builds]
  rfl

theorem cpKeyBody_builds (env : Env G1 G2 GT) (c : Ctx G1 G2 GT) (mpk msk : Key G1 G2 GT) (l : AttrList) (t : ZMod q) :
    cpKeyBody env.release c mpk msk l t = cpKeyBody env.checked c mpk msk l t := by
  unfold cpKeyBody
  simp only [cpKeyLoop_builds]

theorem cpEncBody_single (env : Env G1 G2 GT) (c : Ctx G1 G2 GT) (mpk : Key G1 G2 GT) {p : Policy} (h : p.Single)
    (len : Nat) (r : Rand q) (ct : Ciphertext G1 G2 GT) :
    cpEncBody env.release c mpk p len r ct = cpEncBody env.checked c mpk p len r ct := by
  have e : shareSecret env.release.ndebug {} (some p) r.x r.tape = shareSecret env.checked.ndebug {} (some p) r.x r.tape :=
    share_single h _ _
  unfold cpEncBody
  simp only [cpEncLoop_builds, e]
  rfl

theorem kpKeyBody_single (env : Env G1 G2 GT) (c : Ctx G1 G2 GT) (mpk msk : Key G1 G2 GT) {p : Policy} (h : p.Single)
    (tape r : Nat → ZMod q) :
    kpKeyBody env.release c mpk msk p tape r = kpKeyBody env.checked c mpk msk p tape r := by
  have e : ∀ y : ZMod q, shareSecret env.release.ndebug {} (some p) y tape = shareSecret env.checked.ndebug {} (some p) y tape :=
    fun y => share_single h _ _
  unfold kpKeyBody
  simp only [kpKeyLoop_builds, e]

/-- Either both builds stop in the same way without a value, or the first is undefined. -/
def Worse {α : Type} (x y : Res α) : Prop := x = .ub ∨ (x = y ∧ ∀ a, y ≠ .ok a)

theorem Worse.bind {α β : Type} (x : Res α) {f g : α → Res β} (h : ∀ a, x = .ok a → Worse (f a) (g a)) :
    Worse (x >>= f) (x >>= g) := by
  cases x with
  | ok a => exact h a rfl
  | throw e => exact .inr ⟨rfl, fun a h => by cases h⟩
  | ub => exact .inl rfl
  | abort => exact .inr ⟨rfl, fun a h => by cases h⟩

theorem cpEncBody_gate (env : Env G1 G2 GT) (c : Ctx G1 G2 GT) (mpk : Key G1 G2 GT) {p : Policy} (h : ¬ p.Single)
    (len : Nat) (r : Rand q) (ct : Ciphertext G1 G2 GT) :
    Worse (cpEncBody env.release c mpk p len r ct) (cpEncBody env.checked c mpk p len r ct) := by
  have e : shareSecret env.release.ndebug {} (some p) r.x r.tape = .ub := share_gate h _ _
  unfold cpEncBody
  refine .bind _ fun k _ => .bind _ fun _ _ => .bind _ fun A _ => .bind _ fun A' _ => .inl ?_
  rw [e]; rfl

theorem kpKeyBody_gate (env : Env G1 G2 GT) (c : Ctx G1 G2 GT) (mpk msk : Key G1 G2 GT) {p : Policy} (h : ¬ p.Single)
    (tape r : Nat → ZMod q) :
    Worse (kpKeyBody env.release c mpk msk p tape r) (kpKeyBody env.checked c mpk msk p tape r) := by
  have e : ∀ y : ZMod q, shareSecret env.release.ndebug {} (some p) y tape = .ub := fun y => share_gate h _ _
  unfold kpKeyBody
  refine .bind _ fun k _ => .bind _ fun _ _ => .bind _ fun A _ => .bind _ fun A' _ => .inl ?_
  rw [e]; rfl

theorem caught_worse {α : Type} {x y : Res α} (h : Worse x y) :
    caught x = .ub ∨ (caught x = caught y ∧ ∀ a, caught y ≠ .ok (.ok a)) := by
  rcases h with rfl | ⟨rfl, h⟩
  · exact .inl rfl
  · refine .inr ⟨rfl, fun a ha => ?_⟩
    cases x with
    | ok b => exact h b rfl
    | throw e => cases e <;> simp [caught] at ha
    | ub => simp [caught] at ha
    | abort => simp [caught] at ha

/-! ### C165 -/

/-- The call shares a secret under the policy `p`: encryption of the ciphertext-policy scheme. -/
def EncShares (sch : Scheme) (input : FInput) (p : Policy) : Prop := sch = .cp ∧ input = .policy p
/-- The call shares a secret under the policy `p`: key generation of the key-policy scheme. -/
def KeyShares (sch : Scheme) (input : FInput) (p : Policy) : Prop := sch = .kp ∧ input = .policy p

/-- Decapsulation and decryption answer the same in both builds, for every keystore, key, ciphertext and length. -/
theorem C165_decrypt (env : Env G1 G2 GT) (sch : Scheme) (c : Ctx G1 G2 GT) (keyID : Bytes) (ct : Ciphertext G1 G2 GT)
    (len : Nat) :
    decryptKEM q env.release sch c keyID ct len = decryptKEM q env.checked sch c keyID ct len := by
  unfold decryptKEM
  cases sch <;> simp only [cpDecBody_builds, kpDecBody_builds]

/-- Encapsulation answers the same in both builds when it shares nothing or shares under a single attribute. Under
any other policy a release build never returns a ciphertext: it is undefined, except where the checked build already
fails before the sharing, and then it fails alike. -/
theorem C165_encapsulate (env : Env G1 G2 GT) (sch : Scheme) (c : Ctx G1 G2 GT) (mpkID : Bytes) (input : FInput) (len : Nat)
    (r : Rand q) (ct : Ciphertext G1 G2 GT) :
    ((∀ p, EncShares sch input p → p.Single) →
      encryptKEM env.release sch c mpkID input len r ct = encryptKEM env.checked sch c mpkID input len r ct) ∧
    (∀ p, EncShares sch input p → ¬ p.Single →
      encryptKEM env.release sch c mpkID input len r ct = .ub ∨
      (encryptKEM env.release sch c mpkID input len r ct = encryptKEM env.checked sch c mpkID input len r ct ∧
        ∀ x c', encryptKEM env.checked sch c mpkID input len r ct ≠ .ok (.ok x, c'))) := by
  constructor
  · intro h
    unfold encryptKEM
    cases sch with
    | kp => cases input <;> simp only [kpEncBody_builds]
    | cp =>
      cases input with
      | null => rfl
      | attrs l => rfl
      | policy p => simp only [cpEncBody_single env c _ (h p ⟨rfl, rfl⟩)]
  · rintro p ⟨rfl, rfl⟩ hs
    unfold encryptKEM
    simp only [Bool.true_eq_false, if_false]
    cases hk : (c.ks.getPublicKey mpkID).1 with
    | none => exact .inr ⟨rfl, fun x c' hx => by simp [caught, bind, Res.bind] at hx⟩
    | some mpk =>
      rcases caught_worse (cpEncBody_gate env c mpk hs len r ct) with h | ⟨h, h'⟩
      · left; simp only [h]; rfl
      · right
        simp only [h, true_and]
        intro x c' hx
        obtain ⟨a, ha, hb⟩ := (Res.bind_eq_ok _ _ _).mp hx
        cases hb
        exact h' _ ha

/-- The same for key generation, which shares in the key-policy scheme. -/
theorem C165_key (env : Env G1 G2 GT) (sch : Scheme) (c : Ctx G1 G2 GT) (input : FInput) (keyID mpkID mskID : Bytes)
    (r : Rand q) :
    ((∀ p, KeyShares sch input p → p.Single) →
      generateKey env.release sch c input keyID mpkID mskID r = generateKey env.checked sch c input keyID mpkID mskID r) ∧
    (∀ p, KeyShares sch input p → ¬ p.Single →
      generateKey env.release sch c input keyID mpkID mskID r = .ub ∨
      (generateKey env.release sch c input keyID mpkID mskID r = generateKey env.checked sch c input keyID mpkID mskID r ∧
        ∀ c', generateKey env.checked sch c input keyID mpkID mskID r ≠ .ok (none, c'))) := by
  constructor
  · intro h
    unfold generateKey
    cases sch with
    | cp => cases input <;> simp only [cpKeyBody_builds]
    | kp =>
      cases input with
      | null => rfl
      | attrs l => rfl
      | policy p => simp only [kpKeyBody_single env c _ _ (h p ⟨rfl, rfl⟩)]
  · rintro p ⟨rfl, rfl⟩ hs
    unfold generateKey
    simp only [Bool.true_eq_false, if_false]
    have key : ∀ X Y : Res (Container G1 G2 GT), Worse X Y → ∀ (f : Except Err (Container G1 G2 GT) → Res (Option Err × Ctx G1 G2 GT)),
        (∀ e c', f (.error e) ≠ .ok (none, c')) →
        ((caught X >>= f) = .ub ∨ ((caught X >>= f) = (caught Y >>= f) ∧ ∀ c', (caught Y >>= f) ≠ .ok (none, c'))) := by
      intro X Y hXY f hf
      rcases caught_worse hXY with h | ⟨h, h'⟩
      · left; rw [h]; rfl
      · right
        refine ⟨by rw [h], fun c' hx => ?_⟩
        obtain ⟨a, ha, hb⟩ := (Res.bind_eq_ok _ _ _).mp hx
        cases a with
        | error e => exact hf e c' hb
        | ok a => exact h' _ ha
    refine key _ _ ?_ _ (fun e c' h => by simp at h)
    cases (c.ks.getPublicKey mpkID).1 with
    | none => exact .inr ⟨rfl, fun a h => by cases h⟩
    | some mpk =>
      cases ((c.ks.getPublicKey mpkID).2.getSecretKey mskID).1 with
      | none => exact .inr ⟨rfl, fun a h => by cases h⟩
      | some msk => exact kpKeyBody_gate env c mpk msk hs _ _

/-- So a ciphertext or key that a release build makes under a policy is made under a single attribute, and is the one
the checked build makes. -/
theorem C165_made (env : Env G1 G2 GT) (sch : Scheme) (c c' : Ctx G1 G2 GT) (p : Policy) (r : Rand q) :
    (∀ mpkID len ct x, encryptKEM env.release sch c mpkID (.policy p) len r ct = .ok (.ok x, c') →
      p.Single ∧ encryptKEM env.checked sch c mpkID (.policy p) len r ct = .ok (.ok x, c')) ∧
    (∀ keyID mpkID mskID, generateKey env.release sch c (.policy p) keyID mpkID mskID r = .ok (none, c') →
      p.Single ∧ generateKey env.checked sch c (.policy p) keyID mpkID mskID r = .ok (none, c')) := by
  constructor
  · intro mpkID len ct x h
    cases sch with
    | kp => simp [encryptKEM] at h
    | cp =>
      have hc := C165_encapsulate env .cp c mpkID (.policy p) len r ct
      by_cases hs : p.Single
      · exact ⟨hs, (hc.1 fun p' h' => by cases h'.2; exact hs) ▸ h⟩
      · rcases hc.2 p ⟨rfl, rfl⟩ hs with h' | ⟨h', h''⟩
        · rw [h'] at h; cases h
        · exact absurd (h' ▸ h) (h'' _ _)
  · intro keyID mpkID mskID h
    cases sch with
    | cp => simp [generateKey] at h
    | kp =>
      have hc := C165_key env .kp c (.policy p) keyID mpkID mskID r
      by_cases hs : p.Single
      · exact ⟨hs, (hc.1 fun p' h' => by cases h'.2; exact hs) ▸ h⟩
      · rcases hc.2 p ⟨rfl, rfl⟩ hs with h' | ⟨h', h''⟩
        · rw [h'] at h; cases h
        · exact absurd (h' ▸ h) (h'' _)

/-- Under every policy with a gate, wherever the checked build returns a ciphertext or makes a key, the release build
is undefined. -/
theorem C165_lost (env : Env G1 G2 GT) (sch : Scheme) (c c' : Ctx G1 G2 GT) (p : Policy) (hp : ¬ p.Single) (r : Rand q) :
    (∀ mpkID len ct x, encryptKEM env.checked sch c mpkID (.policy p) len r ct = .ok (.ok x, c') →
      encryptKEM env.release sch c mpkID (.policy p) len r ct = .ub) ∧
    (∀ keyID mpkID mskID, generateKey env.checked sch c (.policy p) keyID mpkID mskID r = .ok (none, c') →
      generateKey env.release sch c (.policy p) keyID mpkID mskID r = .ub) := by
  constructor
  · intro mpkID len ct x h
    cases sch with
    | kp => simp [encryptKEM] at h
    | cp =>
      rcases (C165_encapsulate env .cp c mpkID (.policy p) len r ct).2 p ⟨rfl, rfl⟩ hp with h' | ⟨_, h''⟩
      · exact h'
      · exact absurd h (h'' _ _)
  · intro keyID mpkID mskID h
    cases sch with
    | cp => simp [generateKey] at h
    | kp =>
      rcases (C165_key env .kp c (.policy p) keyID mpkID mskID r).2 p ⟨rfl, rfl⟩ hp with h' | ⟨_, h''⟩
      · exact h'
      · exact absurd h (h'' _)

/-- The whole calls that wrap these: decryption answers the same in both builds for every input, and so does encryption
that shares nothing or shares under a single attribute; where the release build cannot encapsulate, it cannot encrypt. -/
theorem C165_whole (env : Env G1 G2 GT) (sch : Scheme) (c : Ctx G1 G2 GT) :
    (∀ keyID ct, decrypt q env.release sch c keyID ct = decrypt q env.checked sch c keyID ct) ∧
    (∀ mpkID input m (r : Rand q) ct, (∀ p, EncShares sch input p → p.Single) →
      encrypt env.release sch c mpkID input m r ct = encrypt env.checked sch c mpkID input m r ct) ∧
    (∀ mpkID input m (r : Rand q) ct, encryptKEM env.release sch c mpkID input symKeyBytes r ct = .ub →
      encrypt env.release sch c mpkID input m r ct = .ub) := by
  refine ⟨fun keyID ct => ?_, fun mpkID input m r ct h => ?_, fun mpkID input m r ct h => ?_⟩
  · unfold decrypt
    rw [C165_decrypt]
    rfl
  · unfold encrypt
    rw [(C165_encapsulate env sch c mpkID input symKeyBytes r ct).1 h]
    rfl
  · unfold encrypt
    rw [h]
    rfl

/-- Both sides of the distinction occur. -/
example : ({ root := some (LsssEx.lf b!"a" 0) } : Policy).Single ∧ ¬ LsssEx.p1.Single := by
  refine ⟨⟨_, _, _, _, rfl⟩, ?_⟩
  rintro ⟨_, _, _, _, h⟩
  cases h

end Abe
