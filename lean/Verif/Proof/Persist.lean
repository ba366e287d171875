import Verif.Props.SchemeObjects
import Verif.Props.Utils
/-!
# What a call leaves as it is (lemmas for C141)
-/
set_option linter.unusedSimpArgs false
set_option linter.unusedSectionVars false
set_option autoImplicit false
namespace Abe
namespace Persist
open Scheme Live Cpa

variable {G1 G2 GT : Type} {q : Nat} [Fact q.Prime]
variable [AddCommGroup G1] [Module (ZMod q) G1] [AddCommGroup G2] [Module (ZMod q) G2] [AddCommGroup GT]
  [Module (ZMod q) GT]

/-- The call does not remove or replace the public key of this id: it neither deletes the id nor loads a public key for it. -/
def SparesPub (id : Bytes) : Call q G1 G2 → Prop
  | .loadKey id' _ _ kind => id' ≠ id ∨ kind ≠ .pub
  | .deleteKey id' => id' ≠ id
  | _ => True

/-- The call does not remove or replace the secret key of this id: it neither deletes the id, nor loads a secret key for it,
nor generates a key for it. -/
def SparesSec (id : Bytes) : Call q G1 G2 → Prop
  | .keygen _ keyID _ _ _ => keyID ≠ id
  | .loadKey id' _ _ kind => id' ≠ id ∨ kind ≠ .sec
  | .deleteKey id' => id' ≠ id
  | _ => True

/-- The call neither encrypts into this ciphertext object nor loads one into it. -/
def SparesSlot (j : Nat) : Call q G1 G2 → Prop
  | .encrypt j' _ _ _ _ => j' ≠ j
  | .loadCt j' _ => j' ≠ j
  | _ => True

/-- What `w'` has of `w`. -/
structure Frame (w w' : World G1 G2 GT) (P S : Bytes → Prop) (T : Nat → Prop) : Prop where
  ready : w.ctx.ready = true → w'.ctx.ready = true
  alg : w'.ctx.alg = w.ctx.alg
  pub : ∀ id k, P id → (w.ctx.ks.getPublicKey id).1 = some k → (w'.ctx.ks.getPublicKey id).1 = some k
  sec : ∀ id k, S id → (w.ctx.ks.getSecretKey id).1 = some k → (w'.ctx.ks.getSecretKey id).1 = some k
  slot : ∀ j, T j → w'.cts j = w.cts j

theorem Frame.refl (w : World G1 G2 GT) (P S : Bytes → Prop) (T : Nat → Prop) : Frame w w P S T :=
  ⟨id, rfl, fun _ _ _ h => h, fun _ _ _ h => h, fun _ _ => rfl⟩

/-- Only lookups differ. -/
theorem Frame.look (w w' : World G1 G2 GT) (P S : Bytes → Prop) (T : Nat → Prop) (hr : w'.ctx.ready = w.ctx.ready)
    (ha : w'.ctx.alg = w.ctx.alg) (hp : ∀ id, (w'.ctx.ks.getPublicKey id).1 = (w.ctx.ks.getPublicKey id).1)
    (hs : ∀ id, (w'.ctx.ks.getSecretKey id).1 = (w.ctx.ks.getSecretKey id).1) (hc : ∀ j, T j → w'.cts j = w.cts j) :
    Frame w w' P S T :=
  ⟨fun h => hr.trans h, ha, fun id _ _ h => (hp id).trans h, fun id _ _ h => (hs id).trans h, hc⟩

theorem after_frame {α : Type} (w wf : World G1 G2 GT) (P S : Bytes → Prop) (T : Nat → Prop) (f : α → Out × World G1 G2 GT)
    (x : Res α) (h1 : Frame w wf P S T) (h2 : ∀ a, x = .ok a → Frame w (f a).2 P S T) : Frame w (after wf f x).2 P S T := by
  cases x with
  | ok a => exact h2 a rfl
  | throw e => exact h1
  | ub => exact h1
  | abort => exact h1

theorem encryptKEM_ctx {env : Env G1 G2 GT} {sch : Scheme} {c c' : Ctx G1 G2 GT} {id : Bytes} {input : FInput} {len : Nat}
    {r : Rand q} {ct : Ciphertext G1 G2 GT} {x : Except Err (Bytes × Ciphertext G1 G2 GT)}
    (h : Scheme.encryptKEM env sch c id input len r ct = .ok (x, c')) : c' = c ∨ c' = { c with ks := (c.ks.getPublicKey id).2 } := by
  unfold Scheme.encryptKEM at h
  cases sch <;> cases input
  all_goals
    first
    | (cases h; exact .inl rfl)
    | (obtain ⟨_, -, h⟩ := (Res.bind_eq_ok _ _ _).mp h
       cases h; exact .inr rfl)

theorem encrypt_ctx {env : Env G1 G2 GT} {sch : Scheme} {c c' : Ctx G1 G2 GT} {id : Bytes} {input : FInput} {m : Bytes}
    {r : Rand q} {ct : Ciphertext G1 G2 GT} {x : Except Err (Ciphertext G1 G2 GT)}
    (h : Scheme.encrypt env sch c id input m r ct = .ok (x, c')) : c' = c ∨ c' = { c with ks := (c.ks.getPublicKey id).2 } := by
  unfold Scheme.encrypt at h
  obtain ⟨⟨res, c1⟩, g1, h⟩ := (Res.bind_eq_ok _ _ _).mp h
  have := encryptKEM_ctx g1
  cases res with
  | error e => cases h; exact this
  | ok y =>
    obtain ⟨_, -, h⟩ := (Res.bind_eq_ok _ _ _).mp h
    obtain ⟨_, -, h⟩ := (Res.bind_eq_ok _ _ _).mp h
    cases h; exact this

theorem decrypt_ctx {env : Env G1 G2 GT} {sch : Scheme} {c c' : Ctx G1 G2 GT} {id : Bytes} {ct : Ciphertext G1 G2 GT}
    {e : Option Err} {m : Bytes} (h : Scheme.decrypt q env sch c id ct = .ok (e, m, c')) :
    c' = { c with ks := (c.ks.getSecretKey id).2 } := by
  unfold Scheme.decrypt at h
  obtain ⟨⟨res, c1⟩, g1, h⟩ := (Res.bind_eq_ok _ _ _).mp h
  have hc : c1 = { c with ks := (c.ks.getSecretKey id).2 } := by
    unfold Scheme.decryptKEM at g1
    obtain ⟨_, -, g1⟩ := (Res.bind_eq_ok _ _ _).mp g1
    cases g1; rfl
  obtain ⟨out, -, h⟩ := (Res.bind_eq_ok _ _ _).mp h
  cases out with
  | error e => cases h; exact hc
  | ok p => cases h; exact hc

theorem generateKey_other {env : Env G1 G2 GT} {sch : Scheme} {c c' : Ctx G1 G2 GT} {input : FInput}
    {keyID mpkID mskID : Bytes} {r : Rand q} {e : Err} (h : Scheme.generateKey env sch c input keyID mpkID mskID r = .ok (some e, c')) :
    c' = c ∨ c' = { c with ks := ((c.ks.getPublicKey mpkID).2.getSecretKey mskID).2 } := by
  unfold Scheme.generateKey at h
  cases sch <;> cases input
  all_goals
    first
    | (cases h; exact .inl rfl)
    | (obtain ⟨res, -, h⟩ := (Res.bind_eq_ok _ _ _).mp h
       cases res with
       | error e => cases h; exact .inr rfl
       | ok p => cases h)

/-- Parameter generation leaves every key that is there. -/
theorem generateParams_frame {env : Env G1 G2 GT} {sch : Scheme} {c c' : Ctx G1 G2 GT} {mpkID mskID : Bytes}
    {r : ParamRand q G1 G2} {e : Option Err} (h : generateParams env sch c mpkID mskID r = .ok (e, c')) :
    c'.ready = true ∧ c'.alg = c.alg ∧
    (∀ id k, (c.ks.getPublicKey id).1 = some k → (c'.ks.getPublicKey id).1 = some k) ∧
    (∀ id k, (c.ks.getSecretKey id).1 = some k → (c'.ks.getSecretKey id).1 = some k) := by
  have v : ∀ (ks : KeyStore (Key G1 G2 GT)) (i : Bytes), (ks.validateNewParamsID i).2 = (ks.getKey i).2 := fun _ _ => rfl
  have n1 : ∀ (ks : KeyStore (Key G1 G2 GT)) (i : Bytes), ¬ (ks.validateNewParamsID i).1 = false →
      (ks.getPublicKey i).1 = none ∧ (ks.getSecretKey i).1 = none := by
    intro ks i hn
    have hn' : (ks.getKey i).1 = none := by
      cases hk : (ks.getKey i).1 with
      | none => rfl
      | some k => exact absurd (show ((ks.getKey i).1.isNone) = false by rw [hk]; rfl) hn
    unfold KeyStore.getKey at hn'
    cases hp : (ks.getPublicKey i).1 with
    | some k => simp [hp] at hn'
    | none => simp only [hp, sec_after_pub] at hn'; exact ⟨rfl, hn'⟩
  unfold generateParams at h
  simp only at h
  split at h
  · cases h
    refine ⟨rfl, rfl, fun id k hk => ?_, fun id k hk => ?_⟩
    · rw [v, (lookup_after_get _ _ _).1, hk]
    · rw [v, (lookup_after_get _ _ _).2, hk]
  · rename_i h1
    split at h
    · cases h
      refine ⟨rfl, rfl, fun id k hk => ?_, fun id k hk => ?_⟩
      · simp only [v]; rw [(lookup_after_get _ _ _).1, (lookup_after_get _ _ _).1, hk]
      · simp only [v]; rw [(lookup_after_get _ _ _).2, (lookup_after_get _ _ _).2, hk]
    · rename_i h2
      obtain ⟨P, M, h⟩ : ∃ P M, (Res.ok ((none : Option Err), (⟨c.alg, true, ((((c.ks.validateNewParamsID mpkID).2.validateNewParamsID
          mskID).2.addKey mpkID (newKey c.alg mpkID r.uid1 P) .pub).addKey mskID (newKey c.alg mskID r.uid2 M) .sec)⟩ :
          Ctx G1 G2 GT)) = .ok (e, c')) := by
        cases sch
        all_goals
          simp only at h
          obtain ⟨pm, -, h⟩ := (Res.bind_eq_ok _ _ _).mp h
          exact ⟨pm.1, pm.2, h⟩
      cases h
      obtain ⟨a1, -⟩ := n1 _ _ h1
      obtain ⟨-, b2⟩ := n1 _ _ h2
      rw [v, (lookup_after_get _ _ _).2] at b2
      refine ⟨rfl, rfl, fun id k hk => ?_, fun id k hk => ?_⟩
      · rw [pub_addSec]
        have hne : id ≠ mpkID := fun hh => by rw [hh, a1] at hk; cases hk
        show (KeyStore.touch (SMap.insert mpkID (some _) _) id).1 = some k
        have := ((lookup_after_get (c.ks.getKey mpkID).2 mskID id).1.trans (lookup_after_get c.ks mpkID id).1).trans hk
        rw [← this]
        show _ = (KeyStore.touch _ id).1
        simp only [KeyStore.touch_spec, SMap.find_insert, hne, if_false, v]
      · have hne : id ≠ mskID := fun hh => by rw [hh, b2] at hk; cases hk
        rw [sec_addSec_ne _ _ hne]
        show ((((c.ks.validateNewParamsID mpkID).2.validateNewParamsID mskID).2).getSecretKey id).1 = some k
        simp only [v]; rw [(lookup_after_get _ _ _).2, (lookup_after_get _ _ _).2, hk]

/-- One call on values leaves what it spares. -/
theorem step_frame (env : Env G1 G2 GT) (cd : Codec G1 G2 GT) (sch : Scheme) (w : World G1 G2 GT) (call : Call q G1 G2) :
    Frame w (valueStep env cd sch w call).2 (fun id => SparesPub id call) (fun id => SparesSec id call)
      (fun j => SparesSlot j call) := by
  cases call with
  | params mpkID mskID r =>
    refine after_frame _ _ _ _ _ _ _ (.refl _ _ _ _) fun a ha => ?_
    obtain ⟨e, c'⟩ := a
    obtain ⟨h1, h2, h3, h4⟩ := generateParams_frame ha
    exact ⟨fun _ => h1, h2, fun id k _ h => h3 id k h, fun id k _ h => h4 id k h, fun _ _ => rfl⟩
  | keygen input keyID mpkID mskID r =>
    refine after_frame _ _ _ _ _ _ _ (.refl _ _ _ _) fun a ha => ?_
    obtain ⟨e, c'⟩ := a
    cases e with
    | some e =>
      rcases generateKey_other ha with rfl | rfl
      · exact .refl _ _ _ _
      · exact .look _ _ _ _ _ rfl rfl (fun id => by rw [pub_after_sec, pub_after_pub]) (fun id => by rw [sec_after_sec, sec_after_pub])
          fun _ _ => rfl
    | none =>
      obtain ⟨-, h2, h3⟩ := C91_keygen_partial _ _ _ _ _ _ _ _ _ ha
      obtain ⟨mpk, msk, d, -, -, -, hc⟩ := generateKey_shape ha
      refine ⟨fun h => ?_, ?_, fun id k _ h => (h3 id).trans h, fun id k hs h => (h2 id (fun hh => hs hh.symm)).trans h, fun _ _ => rfl⟩
      · rw [hc]; exact h
      · rw [hc]
  | encrypt j mpkID input plaintext r =>
    refine after_frame _ _ _ _ _ _ _ (.refl _ _ _ _) fun a ha => ?_
    obtain ⟨x, c'⟩ := a
    have hc := encrypt_ctx ha
    have key : ∀ cts : Nat → Ciphertext G1 G2 GT, (∀ i, j ≠ i → cts i = w.cts i) → Frame w ⟨c', cts⟩ (fun id => SparesPub id (.encrypt j mpkID input plaintext r : Call q G1 G2))
        (fun id => SparesSec id (.encrypt j mpkID input plaintext r : Call q G1 G2)) (fun i => SparesSlot i (.encrypt j mpkID input plaintext r : Call q G1 G2)) := by
      intro cts hcts
      rcases hc with rfl | rfl
      · exact .look _ _ _ _ _ rfl rfl (fun _ => rfl) (fun _ => rfl) fun i hi => hcts i hi
      · exact .look _ _ _ _ _ rfl rfl (fun id => pub_after_pub _ _ _) (fun id => sec_after_pub _ _ _) fun i hi => hcts i hi
    cases x with
    | error e => exact key _ fun _ _ => rfl
    | ok ct => exact key _ fun i hi => by simp [setCt, Ne.symm hi]
  | decrypt keyID j =>
    refine after_frame _ _ _ _ _ _ _ (.refl _ _ _ _) fun a ha => ?_
    obtain ⟨e, m, c'⟩ := a
    have hc := decrypt_ctx ha
    subst hc
    exact .look _ _ _ _ _ rfl rfl (fun id => pub_after_sec _ _ _) (fun id => sec_after_sec _ _ _) fun _ _ => rfl
  | hashKey mpkID =>
    have hl : Frame w { w with ctx := { w.ctx with ks := (w.ctx.ks.getPublicKey mpkID).2 } }
        (fun id => SparesPub id (.hashKey mpkID : Call q G1 G2)) (fun id => SparesSec id (.hashKey mpkID : Call q G1 G2))
        (fun j => SparesSlot j (.hashKey mpkID : Call q G1 G2)) :=
      .look _ _ _ _ _ rfl rfl (fun id => pub_after_pub _ _ _) (fun id => sec_after_pub _ _ _) fun _ _ => rfl
    refine after_frame _ _ _ _ _ _ _ hl fun a ha => ?_
    obtain ⟨k, c'⟩ := a
    unfold Cpa.getHashKey at ha
    simp only at ha
    split at ha
    · cases ha
    · obtain ⟨_, -, ha⟩ := (Res.bind_eq_ok _ _ _).mp ha
      cases ha; exact hl
  | exportKey id =>
    have hl : Frame w { w with ctx := { w.ctx with ks := (w.ctx.ks.getKey id).2 } }
        (fun i => SparesPub i (.exportKey id : Call q G1 G2)) (fun i => SparesSec i (.exportKey id : Call q G1 G2))
        (fun j => SparesSlot j (.exportKey id : Call q G1 G2)) :=
      .look _ _ _ _ _ rfl rfl (fun i => (lookup_after_get _ _ _).1) (fun i => (lookup_after_get _ _ _).2) fun _ _ => rfl
    refine after_frame _ _ _ _ _ _ _ hl fun a ha => ?_
    obtain ⟨k, c'⟩ := a
    unfold Cpa.exportKey at ha
    simp only at ha
    split at ha
    · cases ha; exact hl
    · obtain ⟨res, -, ha⟩ := (Res.bind_eq_ok _ _ _).mp ha
      cases res <;> (cases ha; exact hl)
  | loadKey id blob rnd kind =>
    refine after_frame _ _ _ _ _ _ _ ?_ fun a ha => ?_
    · split
      · exact ⟨fun _ => rfl, rfl, fun _ _ _ h => h, fun _ _ _ h => h, fun _ _ => rfl⟩
      · exact .refl _ _ _ _
    · obtain ⟨e, c'⟩ := a
      obtain ⟨h1, h2, h3, h4⟩ := C91_load_partial _ _ _ _ _ _ _ _ _ ha
      refine ⟨fun _ => h1, h2, fun i k hi h => (h4 i (hi.imp_left Ne.symm)).trans h, fun i k hi h => (h3 i (hi.imp_left Ne.symm)).trans h, fun _ _ => rfl⟩
  | deleteKey id =>
    have := delete_lookups w.ctx.ks id
    refine ⟨fun h => h, rfl, fun i k hi h => ?_, fun i k hi h => ?_, fun _ _ => rfl⟩
    · show ((w.ctx.ks.deleteKey id).2.getPublicKey i).1 = some k
      rw [(this.2 i).1, if_neg (Ne.symm hi), h]
    · show ((w.ctx.ks.deleteKey id).2.getSecretKey i).1 = some k
      rw [(this.2 i).2, if_neg (Ne.symm hi), h]
  | check id => exact .refl _ _ _ _
  | exportCt j => exact after_frame _ _ _ _ _ _ _ (.refl _ _ _ _) fun a _ => .refl _ _ _ _
  | loadCt j blob =>
    refine after_frame _ _ _ _ _ _ _ (.refl _ _ _ _) fun a _ => ?_
    exact ⟨fun h => h, rfl, fun _ _ _ h => h, fun _ _ _ h => h, fun i hi => by simp [setCt, Ne.symm (show j ≠ i from hi)]⟩

/-- So does a list of calls. -/
theorem run_frame (env : Env G1 G2 GT) (cd : Codec G1 G2 GT) (sch : Scheme) : ∀ (cs : List (Call q G1 G2)) (w : World G1 G2 GT),
    Frame w (valueRun env cd sch w cs) (fun id => ∀ c ∈ cs, SparesPub id c) (fun id => ∀ c ∈ cs, SparesSec id c)
      (fun j => ∀ c ∈ cs, SparesSlot j c)
  | [], w => .refl _ _ _ _
  | c :: cs, w => by
    have h1 := step_frame env cd sch w c
    have h2 := run_frame env cd sch cs (valueStep env cd sch w c).2
    refine ⟨fun h => h2.ready (h1.ready h), h2.alg.trans h1.alg, fun id k hs h => ?_, fun id k hs h => ?_, fun j hs => ?_⟩
    · exact h2.pub id k (fun c' hc' => hs c' (.tail _ hc')) (h1.pub id k (hs c (.head _)) h)
    · exact h2.sec id k (fun c' hc' => hs c' (.tail _ hc')) (h1.sec id k (hs c (.head _)) h)
    · exact (h2.slot j fun c' hc' => hs c' (.tail _ hc')).trans (h1.slot j (hs c (.head _)))

theorem valueRun_append (env : Env G1 G2 GT) (cd : Codec G1 G2 GT) (sch : Scheme) (w : World G1 G2 GT) (c : Call q G1 G2)
    (cs ds : List (Call q G1 G2)) :
    valueRun env cd sch w (cs ++ c :: ds) = valueRun env cd sch (valueStep env cd sch (valueRun env cd sch w cs) c).2 ds := by
  simp only [valueRun, List.foldl_append, List.foldl_cons]

/-- A key generated later is the same key. -/
theorem generateKey_later {env : Env G1 G2 GT} {sch : Scheme} {c c' d : Ctx G1 G2 GT} {input : FInput}
    {keyID mpkID mskID : Bytes} {r : Rand q} {mpk msk dk : Key G1 G2 GT}
    (h : Scheme.generateKey env sch c input keyID mpkID mskID r = .ok (none, c')) (hdk : (c'.ks.getSecretKey keyID).1 = some dk)
    (h1 : (c.ks.getPublicKey mpkID).1 = some mpk) (h2 : (c.ks.getSecretKey mskID).1 = some msk)
    (g1 : (d.ks.getPublicKey mpkID).1 = some mpk) (g2 : (d.ks.getSecretKey mskID).1 = some msk)
    (hr : d.ready = c.ready) (ha : d.alg = c.alg) :
    ∃ d', Scheme.generateKey env sch d input keyID mpkID mskID r = .ok (none, d') ∧ (d'.ks.getSecretKey keyID).1 = some dk := by
  obtain ⟨mpk', msk', K, a1, a2, hb, rfl⟩ := generateKey_shape h
  rw [h1] at a1; rw [h2] at a2; cases a1; cases a2
  rw [show ((((c.ks.getPublicKey mpkID).2.getSecretKey mskID).2.addKey keyID (newKey c.alg keyID r.uid K) .sec).getSecretKey keyID).1
    = some (newKey c.alg keyID r.uid K) from sec_addSec _ _ _] at hdk
  cases hdk
  have hu : usePairing d = usePairing c := by unfold usePairing; rw [hr]
  refine ⟨{ d with ks := ((d.ks.getPublicKey mpkID).2.getSecretKey mskID).2.addKey keyID (newKey d.alg keyID r.uid K) .sec }, ?_, ?_⟩
  · rcases hb with ⟨l, rfl, rfl, hb⟩ | ⟨p, rfl, rfl, hb⟩
    · have hd : Scheme.cpKeyBody env d mpk msk l r.x = .ok K := by
        rw [← hb]; unfold Scheme.cpKeyBody; rw [hu]
      unfold Scheme.generateKey
      simp only [g1, sec_after_pub, g2, hd, caught_ok, Res.ok_bind, Bool.true_eq_false, if_false]
    · have hd : Scheme.kpKeyBody env d mpk msk p r.tape r.r = .ok K := by
        rw [← hb]; unfold Scheme.kpKeyBody; rw [hu]
      unfold Scheme.generateKey
      simp only [g1, sec_after_pub, g2, hd, caught_ok, Res.ok_bind, Bool.true_eq_false, if_false]
  · rw [ha]; exact sec_addSec _ _ _

end Persist
end Abe
