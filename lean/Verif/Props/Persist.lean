import Verif.Proof.Persist
/-!
# Keys and ciphertexts keep working whatever else the program does (C141)

The round trips of C46 are about one key generation, one encryption and one decryption. Here they are steps of a program that
makes any other calls before, between and after them on the same context (`Live.Call`: parameters, keys, encryptions,
decryptions, exports, loads of any bytes, deletions), failing or not. The program must leave the keys and the ciphertext object of
the round trip alone: the context has no protection for them (C91), so a key generated, loaded or deleted under the same id takes
the place of the old one, and this is all that can go wrong.
-/
set_option linter.unusedSimpArgs false
set_option linter.unusedSectionVars false
set_option autoImplicit false
namespace Abe
namespace Persist
open Scheme Live Cpa

variable {G1 G2 GT : Type} {q : Nat} [Fact q.Prime]
variable [AddCommGroup G1] [Module (ZMod q) G1] [AddCommGroup G2] [Module (ZMod q) G2] [AddCommGroup GT]
  [Module (ZMod q) GT]

/-- What a decryption returns: the plaintext if `t`, and otherwise the error for a failed decryption and nothing. -/
def Decides (t : Prop) (plaintext : Bytes) (o : Res Out) : Prop :=
  (t → o = .ok (.plain none plaintext)) ∧ (¬ t → o = .ok (.plain (some .decryptionFailed) []))

section core
variable {env : Env G1 G2 GT} {cd : Codec G1 G2 GT} {sch : Scheme}

/-- What the round trips of C46 and C47 say. -/
def Trips (env : Env G1 G2 GT) (sch : Scheme) (c1 : Ctx G1 G2 GT) (kin ein : FInput) (keyID mpkID mskID : Bytes) (kr er : Rand q)
    (plaintext : Bytes) (t : Prop) : Prop :=
  ∃ mpk c2 dk, (c1.ks.getPublicKey mpkID).1 = some mpk ∧
    Scheme.generateKey env sch c1 kin keyID mpkID mskID kr = .ok (none, c2) ∧
    (c2.ks.getSecretKey keyID).1 = some dk ∧
    ∀ (cE cD : Ctx G1 G2 GT) (idE idD : Bytes), cE.ready = true → cD.ready = true →
      (cE.ks.getPublicKey idE).1 = some mpk → (cD.ks.getSecretKey idD).1 = some dk →
      ∃ ct' cE' cD', Scheme.encrypt env sch cE idE ein plaintext er {} = .ok (.ok ct', cE') ∧
        (t → Scheme.decrypt q env sch cD idD ct' = .ok (none, plaintext, cD')) ∧
        (¬ t → Scheme.decrypt q env sch cD idD ct' = .ok (some .decryptionFailed, [], cD'))

theorem params_value {w : World G1 G2 GT} {mpkID mskID : Bytes} {pr : ParamRand q G1 G2}
    (h : (step env cd sch w (.params mpkID mskID pr)).1 = .ok (.code none)) :
    ∃ c1, generateParams env sch w.ctx mpkID mskID pr = .ok (none, c1) ∧
      (valueStep env cd sch w (.params mpkID mskID pr)).2 = { w with ctx := c1 } := by
  have hv := C117_values env cd sch w [] (.params mpkID mskID pr) (fun h => h)
  rw [show run env cd sch w [] = w from rfl, show valueRun env cd sch w [] = w from rfl, h] at hv
  simp only [valueStep] at hv ⊢
  cases hg : generateParams env sch w.ctx mpkID mskID pr with
  | ok x =>
    rw [hg] at hv
    simp only [after, Res.ok.injEq, Out.code.injEq] at hv
    exact ⟨x.2, by rw [hv], rfl⟩
  | throw e => rw [hg] at hv; cases hv
  | ub => rw [hg] at hv; cases hv
  | abort => rw [hg] at hv; cases hv

theorem sees (w : World G1 G2 GT) (cs : List (Call q G1 G2)) (call : Call q G1 G2) (h : ¬ WritesNull (run env cd sch w cs) call) :
    (step env cd sch (run env cd sch w cs) call).1 = (valueStep env cd sch (valueRun env cd sch w cs) call).1 :=
  C117_values env cd sch w cs call h

theorem keygen_value {w : World G1 G2 GT} {kin : FInput} {keyID mpkID mskID : Bytes} {kr : Rand q} {c2 : Ctx G1 G2 GT}
    (h : Scheme.generateKey env sch w.ctx kin keyID mpkID mskID kr = .ok (none, c2)) :
    valueStep env cd sch w (.keygen kin keyID mpkID mskID kr) = (.ok (.code none), { w with ctx := c2 }) := by
  simp only [valueStep, h, after]

theorem encrypt_value {w : World G1 G2 GT} {ein : FInput} {mpkID m : Bytes} {j : Nat} {er : Rand q} {c2 : Ctx G1 G2 GT}
    {ct : Ciphertext G1 G2 GT} (h : Scheme.encrypt env sch w.ctx mpkID ein m er {} = .ok (.ok ct, c2)) :
    valueStep env cd sch w (.encrypt j mpkID ein m er) = (.ok (.code none), ⟨c2, setCt w.cts j ct⟩) := by
  simp only [valueStep, h, after]

theorem decides_value {w : World G1 G2 GT} {keyID m : Bytes} {j : Nat} {cD' : Ctx G1 G2 GT} {t : Prop}
    (h1 : t → Scheme.decrypt q env sch w.ctx keyID (w.cts j) = .ok (none, m, cD'))
    (h2 : ¬ t → Scheme.decrypt q env sch w.ctx keyID (w.cts j) = .ok (some .decryptionFailed, [], cD')) :
    Decides t m (valueStep env cd sch w (.decrypt keyID j : Call q G1 G2)).1 := by
  refine ⟨fun ht => ?_, fun ht => ?_⟩
  · simp only [valueStep, h1 ht, after]
  · simp only [valueStep, h2 ht, after]

/-- The key first, then the ciphertext. -/
theorem key_first {w : World G1 G2 GT} {kin ein : FInput} {keyID mpkID mskID m : Bytes} {pr : ParamRand q G1 G2}
    {kr er : Rand q} {j : Nat} {t : Prop}
    (hgen : (step env cd sch w (.params mpkID mskID pr)).1 = .ok (.code none))
    (H : ∀ c1, generateParams env sch w.ctx mpkID mskID pr = .ok (none, c1) → Trips env sch c1 kin ein keyID mpkID mskID kr er m t)
    {cs1 cs2 cs3 : List (Call q G1 G2)} (s1 : ∀ c ∈ cs1, SparesPub mpkID c ∧ SparesSec mskID c)
    (s2 : ∀ c ∈ cs2, SparesPub mpkID c ∧ SparesSec keyID c) (s3 : ∀ c ∈ cs3, SparesSec keyID c ∧ SparesSlot j c) :
    (step env cd sch (run env cd sch w (.params mpkID mskID pr :: cs1)) (.keygen kin keyID mpkID mskID kr)).1 = .ok (.code none) ∧
    (step env cd sch (run env cd sch w (.params mpkID mskID pr :: cs1 ++ .keygen kin keyID mpkID mskID kr :: cs2))
      (.encrypt j mpkID ein m er)).1 = .ok (.code none) ∧
    Decides t m (step env cd sch (run env cd sch w (.params mpkID mskID pr :: cs1 ++ .keygen kin keyID mpkID mskID kr :: cs2 ++
      .encrypt j mpkID ein m er :: cs3)) (.decrypt keyID j : Call q G1 G2)).1 := by
  obtain ⟨c1, hp, hw⟩ := params_value hgen
  obtain ⟨r1, -⟩ := generateParams_frame hp
  obtain ⟨mpk, c2, dk, k1, k2, k3, k4⟩ := H c1 hp
  obtain ⟨-, msk, -, -, hm, -, -⟩ := generateKey_shape k2
  -- the world in which the key is made
  have f1 := run_frame env cd sch cs1 { w with ctx := c1 }
  have e1 : valueRun env cd sch w (.params mpkID mskID pr :: cs1) = valueRun env cd sch { w with ctx := c1 } cs1 := by
    rw [← hw]; rfl
  obtain ⟨wK, hwK⟩ : ∃ wK, valueRun env cd sch { w with ctx := c1 } cs1 = wK := ⟨_, rfl⟩
  rw [hwK] at f1 e1
  have p1 := f1.pub mpkID mpk (fun c hc => (s1 c hc).1) k1
  have q1 := f1.sec mskID msk (fun c hc => (s1 c hc).2) hm
  have y1 := f1.ready r1
  obtain ⟨d2, g1, g2⟩ := generateKey_later k2 k3 k1 hm p1 q1 (y1.trans r1.symm) f1.alg
  have v1 := keygen_value (cd := cd) g1
  -- the world in which the ciphertext is made
  have f2 := step_frame env cd sch wK (.keygen kin keyID mpkID mskID kr)
  rw [v1] at f2
  have f3 := run_frame env cd sch cs2 { wK with ctx := d2 }
  have e2 : valueRun env cd sch w (.params mpkID mskID pr :: cs1 ++ .keygen kin keyID mpkID mskID kr :: cs2) =
      valueRun env cd sch { wK with ctx := d2 } cs2 := by rw [valueRun_append, e1, v1]
  obtain ⟨wE, hwE⟩ : ∃ wE, valueRun env cd sch { wK with ctx := d2 } cs2 = wE := ⟨_, rfl⟩
  rw [hwE] at f3 e2
  have p2 := f3.pub mpkID mpk (fun c hc => (s2 c hc).1) (f2.pub mpkID mpk trivial p1)
  have q2 := f3.sec keyID dk (fun c hc => (s2 c hc).2) g2
  have y2 := f3.ready (f2.ready y1)
  obtain ⟨ct, cE, -, h1, -⟩ := k4 wE.ctx wE.ctx mpkID keyID y2 y2 p2 q2
  have v2 := encrypt_value (cd := cd) (j := j) h1
  -- the world in which it is decrypted
  have f4 := step_frame env cd sch wE (.encrypt j mpkID ein m er)
  rw [v2] at f4
  have f5 := run_frame env cd sch cs3 ⟨cE, setCt wE.cts j ct⟩
  have e3 : valueRun env cd sch w (.params mpkID mskID pr :: cs1 ++ .keygen kin keyID mpkID mskID kr :: cs2 ++
      .encrypt j mpkID ein m er :: cs3) = valueRun env cd sch ⟨cE, setCt wE.cts j ct⟩ cs3 := by rw [valueRun_append, e2, v2]
  obtain ⟨wD, hwD⟩ : ∃ wD, valueRun env cd sch ⟨cE, setCt wE.cts j ct⟩ cs3 = wD := ⟨_, rfl⟩
  rw [hwD] at f5 e3
  have q3 := f5.sec keyID dk (fun c hc => (s3 c hc).1) (f4.sec keyID dk trivial q2)
  have y3 := f5.ready (f4.ready y2)
  have c3 : wD.cts j = ct := by
    rw [f5.slot j fun c hc => (s3 c hc).2]; simp [setCt]
  obtain ⟨ct', cE', cD', h1', h2, h3⟩ := k4 wE.ctx wD.ctx mpkID keyID y2 y3 p2 q3
  rw [h1] at h1'; cases h1'
  refine ⟨?_, ?_, ?_⟩
  · rw [sees, e1, v1]; exact fun h => h
  · rw [sees, e2, v2]; exact fun h => h
  · rw [sees, e3]
    · exact decides_value (cD' := cD') (by rw [c3]; exact h2) (by rw [c3]; exact h3)
    · exact fun h => h

/-- The ciphertext first, then the key. -/
theorem ciphertext_first {w : World G1 G2 GT} {kin ein : FInput} {keyID mpkID mskID m : Bytes} {pr : ParamRand q G1 G2}
    {kr er : Rand q} {j : Nat} {t : Prop}
    (hgen : (step env cd sch w (.params mpkID mskID pr)).1 = .ok (.code none))
    (H : ∀ c1, generateParams env sch w.ctx mpkID mskID pr = .ok (none, c1) → Trips env sch c1 kin ein keyID mpkID mskID kr er m t)
    {cs1 cs2 cs3 : List (Call q G1 G2)} (s1 : ∀ c ∈ cs1, SparesPub mpkID c ∧ SparesSec mskID c)
    (s2 : ∀ c ∈ cs2, SparesPub mpkID c ∧ SparesSec mskID c ∧ SparesSlot j c) (s3 : ∀ c ∈ cs3, SparesSec keyID c ∧ SparesSlot j c) :
    (step env cd sch (run env cd sch w (.params mpkID mskID pr :: cs1)) (.encrypt j mpkID ein m er)).1 = .ok (.code none) ∧
    (step env cd sch (run env cd sch w (.params mpkID mskID pr :: cs1 ++ .encrypt j mpkID ein m er :: cs2))
      (.keygen kin keyID mpkID mskID kr)).1 = .ok (.code none) ∧
    Decides t m (step env cd sch (run env cd sch w (.params mpkID mskID pr :: cs1 ++ .encrypt j mpkID ein m er :: cs2 ++
      .keygen kin keyID mpkID mskID kr :: cs3)) (.decrypt keyID j : Call q G1 G2)).1 := by
  obtain ⟨c1, hp, hw⟩ := params_value hgen
  obtain ⟨r1, -⟩ := generateParams_frame hp
  obtain ⟨mpk, c2, dk, k1, k2, k3, k4⟩ := H c1 hp
  obtain ⟨-, msk, -, -, hm, -, -⟩ := generateKey_shape k2
  have r2 : c2.ready = true := by
    obtain ⟨_, _, _, -, -, -, hc⟩ := generateKey_shape k2
    rw [hc]; exact r1
  have f1 := run_frame env cd sch cs1 { w with ctx := c1 }
  have e1 : valueRun env cd sch w (.params mpkID mskID pr :: cs1) = valueRun env cd sch { w with ctx := c1 } cs1 := by
    rw [← hw]; rfl
  obtain ⟨wE, hwE⟩ : ∃ wE, valueRun env cd sch { w with ctx := c1 } cs1 = wE := ⟨_, rfl⟩
  rw [hwE] at f1 e1
  have p1 := f1.pub mpkID mpk (fun c hc => (s1 c hc).1) k1
  have q1 := f1.sec mskID msk (fun c hc => (s1 c hc).2) hm
  have y1 := f1.ready r1
  obtain ⟨ct, cE, -, h1, -⟩ := k4 wE.ctx c2 mpkID keyID y1 r2 p1 k3
  have v1 := encrypt_value (cd := cd) (j := j) h1
  have f2 := step_frame env cd sch wE (.encrypt j mpkID ein m er)
  rw [v1] at f2
  have f3 := run_frame env cd sch cs2 ⟨cE, setCt wE.cts j ct⟩
  have e2 : valueRun env cd sch w (.params mpkID mskID pr :: cs1 ++ .encrypt j mpkID ein m er :: cs2) =
      valueRun env cd sch ⟨cE, setCt wE.cts j ct⟩ cs2 := by rw [valueRun_append, e1, v1]
  obtain ⟨wK, hwK⟩ : ∃ wK, valueRun env cd sch ⟨cE, setCt wE.cts j ct⟩ cs2 = wK := ⟨_, rfl⟩
  rw [hwK] at f3 e2
  have p2 := f3.pub mpkID mpk (fun c hc => (s2 c hc).1) (f2.pub mpkID mpk trivial p1)
  have q2 := f3.sec mskID msk (fun c hc => (s2 c hc).2.1) (f2.sec mskID msk trivial q1)
  have y2 := f3.ready (f2.ready y1)
  have a2 : wK.ctx.alg = c1.alg := f3.alg.trans (f2.alg.trans f1.alg)
  have t2 : wK.cts j = ct := by rw [f3.slot j fun c hc => (s2 c hc).2.2]; simp [setCt]
  obtain ⟨d2, g1, g2⟩ := generateKey_later k2 k3 k1 hm p2 q2 (y2.trans r1.symm) a2
  have v2 := keygen_value (cd := cd) g1
  have f4 := step_frame env cd sch wK (.keygen kin keyID mpkID mskID kr)
  rw [v2] at f4
  have f5 := run_frame env cd sch cs3 { wK with ctx := d2 }
  have e3 : valueRun env cd sch w (.params mpkID mskID pr :: cs1 ++ .encrypt j mpkID ein m er :: cs2 ++
      .keygen kin keyID mpkID mskID kr :: cs3) = valueRun env cd sch { wK with ctx := d2 } cs3 := by rw [valueRun_append, e2, v2]
  obtain ⟨wD, hwD⟩ : ∃ wD, valueRun env cd sch { wK with ctx := d2 } cs3 = wD := ⟨_, rfl⟩
  rw [hwD] at f5 e3
  have q3 := f5.sec keyID dk (fun c hc => (s3 c hc).1) g2
  have y3 := f5.ready (f4.ready y2)
  have c3 : wD.cts j = ct := (f5.slot j fun c hc => (s3 c hc).2).trans t2
  obtain ⟨ct', cE', cD', h1', h2, h3⟩ := k4 wE.ctx wD.ctx mpkID keyID y1 y3 p1 q3
  rw [h1] at h1'; cases h1'
  refine ⟨?_, ?_, ?_⟩
  · rw [sees, e1, v1]; exact fun h => h
  · rw [sees, e2, v2]; exact fun h => h
  · rw [sees, e3]
    · exact decides_value (cD' := cD') (by rw [c3]; exact h2) (by rw [c3]; exact h3)
    · exact fun h => h

end core

section props
variable (env : Env G1 G2 GT) (hb : Bilinear q env.e) (hnd : env.ndebug = false) (hmd : ∀ x, (env.md x).length = 32)
variable (cd : Codec G1 G2 GT) (w : World G1 G2 GT) (mpkID mskID keyID : Bytes) (pr : ParamRand q G1 G2) (kr er : Rand q)
variable (s l : Bytes) (e : Expr) (a : AExpr) (hs : PolicyText env.mktime s e) (hl : ListText env.mktime l a)
variable (hpct : e.Unnumbered) (j : Nat) (m : Bytes)
include hb hnd hmd hs hl hpct

/-- **C141** Ciphertext policies, key before ciphertext. After parameters were made, a key for an attribute list is issued at any
later time, a message is encrypted for a policy at any later time, and decrypted at any later time: all three calls succeed and the
decryption gives the message exactly if the policy is true for the list. The calls in between are arbitrary, except that the first
leave the parameters, the second the public key and the issued key, and the last the issued key and the ciphertext object. -/
theorem C141_cp_key_first (hgen : (step env cd .cp w (.params mpkID mskID pr)).1 = .ok (.code none)) (cs1 cs2 cs3 : List (Call q G1 G2))
    (s1 : ∀ c ∈ cs1, SparesPub mpkID c ∧ SparesSec mskID c) (s2 : ∀ c ∈ cs2, SparesPub mpkID c ∧ SparesSec keyID c)
    (s3 : ∀ c ∈ cs3, SparesSec keyID c ∧ SparesSlot j c) :
    ∃ p al, createPolicyTree env.mktime s = .ok (some p) ∧ createAttributeList env.mktime l = .ok (some al) ∧
      (NoClash env.md (rowNames p) → NoClash env.md al.attrs →
        (step env cd .cp (run env cd .cp w (.params mpkID mskID pr :: cs1)) (.keygen (.attrs al) keyID mpkID mskID kr)).1 =
          .ok (.code none) ∧
        (step env cd .cp (run env cd .cp w (.params mpkID mskID pr :: cs1 ++ .keygen (.attrs al) keyID mpkID mskID kr :: cs2))
          (.encrypt j mpkID (.policy p) m er)).1 = .ok (.code none) ∧
        Decides (e.trueFor env.mktime a) m (step env cd .cp (run env cd .cp w (.params mpkID mskID pr :: cs1 ++
          .keygen (.attrs al) keyID mpkID mskID kr :: cs2 ++ .encrypt j mpkID (.policy p) m er :: cs3)) (.decrypt keyID j : Call q G1 G2)).1) := by
  obtain ⟨p, al, t1, t2, t3, t4⟩ := texts hs hl hpct
  refine ⟨p, al, t1, t2, fun n1 n2 => key_first hgen (fun c1 hp => ?_) s1 s2 s3⟩
  obtain ⟨p', al', u1, u2, u3⟩ := C46_cp_texts env hb hnd hmd w.ctx c1 mpkID mskID keyID pr kr er hp s l e a hs hl hpct {} m
  rw [t1] at u1; rw [t2] at u2; cases u1; cases u2
  exact u3 n1 n2

/-- **C141** Ciphertext policies, ciphertext before key: a key issued after the message was encrypted decrypts it as well. -/
theorem C141_cp_ciphertext_first (hgen : (step env cd .cp w (.params mpkID mskID pr)).1 = .ok (.code none))
    (cs1 cs2 cs3 : List (Call q G1 G2)) (s1 : ∀ c ∈ cs1, SparesPub mpkID c ∧ SparesSec mskID c)
    (s2 : ∀ c ∈ cs2, SparesPub mpkID c ∧ SparesSec mskID c ∧ SparesSlot j c) (s3 : ∀ c ∈ cs3, SparesSec keyID c ∧ SparesSlot j c) :
    ∃ p al, createPolicyTree env.mktime s = .ok (some p) ∧ createAttributeList env.mktime l = .ok (some al) ∧
      (NoClash env.md (rowNames p) → NoClash env.md al.attrs →
        (step env cd .cp (run env cd .cp w (.params mpkID mskID pr :: cs1)) (.encrypt j mpkID (.policy p) m er)).1 =
          .ok (.code none) ∧
        (step env cd .cp (run env cd .cp w (.params mpkID mskID pr :: cs1 ++ .encrypt j mpkID (.policy p) m er :: cs2))
          (.keygen (.attrs al) keyID mpkID mskID kr)).1 = .ok (.code none) ∧
        Decides (e.trueFor env.mktime a) m (step env cd .cp (run env cd .cp w (.params mpkID mskID pr :: cs1 ++
          .encrypt j mpkID (.policy p) m er :: cs2 ++ .keygen (.attrs al) keyID mpkID mskID kr :: cs3)) (.decrypt keyID j : Call q G1 G2)).1) := by
  obtain ⟨p, al, t1, t2, t3, t4⟩ := texts hs hl hpct
  refine ⟨p, al, t1, t2, fun n1 n2 => ciphertext_first hgen (fun c1 hp => ?_) s1 s2 s3⟩
  obtain ⟨p', al', u1, u2, u3⟩ := C46_cp_texts env hb hnd hmd w.ctx c1 mpkID mskID keyID pr kr er hp s l e a hs hl hpct {} m
  rw [t1] at u1; rw [t2] at u2; cases u1; cases u2
  exact u3 n1 n2

/-- **C141** Key policies, key before ciphertext. -/
theorem C141_kp_key_first (hgen : (step env cd .kp w (.params mpkID mskID pr)).1 = .ok (.code none)) (cs1 cs2 cs3 : List (Call q G1 G2))
    (s1 : ∀ c ∈ cs1, SparesPub mpkID c ∧ SparesSec mskID c) (s2 : ∀ c ∈ cs2, SparesPub mpkID c ∧ SparesSec keyID c)
    (s3 : ∀ c ∈ cs3, SparesSec keyID c ∧ SparesSlot j c) :
    ∃ p al, createPolicyTree env.mktime s = .ok (some p) ∧ createAttributeList env.mktime l = .ok (some al) ∧
      (NoClash env.md (rowNames p) → NoClash env.md al.attrs →
        (step env cd .kp (run env cd .kp w (.params mpkID mskID pr :: cs1)) (.keygen (.policy p) keyID mpkID mskID kr)).1 =
          .ok (.code none) ∧
        (step env cd .kp (run env cd .kp w (.params mpkID mskID pr :: cs1 ++ .keygen (.policy p) keyID mpkID mskID kr :: cs2))
          (.encrypt j mpkID (.attrs al) m er)).1 = .ok (.code none) ∧
        Decides (e.trueFor env.mktime a) m (step env cd .kp (run env cd .kp w (.params mpkID mskID pr :: cs1 ++
          .keygen (.policy p) keyID mpkID mskID kr :: cs2 ++ .encrypt j mpkID (.attrs al) m er :: cs3)) (.decrypt keyID j : Call q G1 G2)).1) := by
  obtain ⟨p, al, t1, t2, t3, t4⟩ := texts hs hl hpct
  refine ⟨p, al, t1, t2, fun n1 n2 => key_first hgen (fun c1 hp => ?_) s1 s2 s3⟩
  obtain ⟨p', al', u1, u2, u3⟩ := C46_kp_texts env hb hnd hmd w.ctx c1 mpkID mskID keyID pr kr er hp s l e a hs hl hpct {} m
  rw [t1] at u1; rw [t2] at u2; cases u1; cases u2
  exact u3 n1 n2

/-- **C141** Key policies, ciphertext before key. -/
theorem C141_kp_ciphertext_first (hgen : (step env cd .kp w (.params mpkID mskID pr)).1 = .ok (.code none))
    (cs1 cs2 cs3 : List (Call q G1 G2)) (s1 : ∀ c ∈ cs1, SparesPub mpkID c ∧ SparesSec mskID c)
    (s2 : ∀ c ∈ cs2, SparesPub mpkID c ∧ SparesSec mskID c ∧ SparesSlot j c) (s3 : ∀ c ∈ cs3, SparesSec keyID c ∧ SparesSlot j c) :
    ∃ p al, createPolicyTree env.mktime s = .ok (some p) ∧ createAttributeList env.mktime l = .ok (some al) ∧
      (NoClash env.md (rowNames p) → NoClash env.md al.attrs →
        (step env cd .kp (run env cd .kp w (.params mpkID mskID pr :: cs1)) (.encrypt j mpkID (.attrs al) m er)).1 =
          .ok (.code none) ∧
        (step env cd .kp (run env cd .kp w (.params mpkID mskID pr :: cs1 ++ .encrypt j mpkID (.attrs al) m er :: cs2))
          (.keygen (.policy p) keyID mpkID mskID kr)).1 = .ok (.code none) ∧
        Decides (e.trueFor env.mktime a) m (step env cd .kp (run env cd .kp w (.params mpkID mskID pr :: cs1 ++
          .encrypt j mpkID (.attrs al) m er :: cs2 ++ .keygen (.policy p) keyID mpkID mskID kr :: cs3)) (.decrypt keyID j : Call q G1 G2)).1) := by
  obtain ⟨p, al, t1, t2, t3, t4⟩ := texts hs hl hpct
  refine ⟨p, al, t1, t2, fun n1 n2 => ciphertext_first hgen (fun c1 hp => ?_) s1 s2 s3⟩
  obtain ⟨p', al', u1, u2, u3⟩ := C46_kp_texts env hb hnd hmd w.ctx c1 mpkID mskID keyID pr kr er hp s l e a hs hl hpct {} m
  rw [t1] at u1; rw [t2] at u2; cases u1; cases u2
  exact u3 n1 n2

end props

/-- **C141** The condition on the calls in between is needed, nothing protects an issued key: a second key generated under the same id takes its place without an error.
The first key could decrypt the message, the list of the second does not meet the policy, and the decryption that gave the message
before now fails. -/
theorem C141_guard_needed (env : Env G1 G2 GT) (hb : Bilinear q env.e) (hnd : env.ndebug = false)
    (hmd : ∀ x, (env.md x).length = 32) (cd : Codec G1 G2 GT) (w : World G1 G2 GT) (mpkID mskID keyID : Bytes)
    (pr : ParamRand q G1 G2) (kr kr' er : Rand q) (s l l' : Bytes) (e : Expr) (a a' : AExpr) (hs : PolicyText env.mktime s e)
    (hl : ListText env.mktime l a) (hl' : ListText env.mktime l' a') (hpct : e.Unnumbered) (j : Nat) (m : Bytes)
    (hgen : (step env cd .cp w (.params mpkID mskID pr)).1 = .ok (.code none)) (hid : keyID ≠ mskID)
    (ht : e.trueFor env.mktime a) (hf : ¬ e.trueFor env.mktime a') :
    ∃ p al al', createPolicyTree env.mktime s = .ok (some p) ∧ createAttributeList env.mktime l = .ok (some al) ∧
      createAttributeList env.mktime l' = .ok (some al') ∧
      (NoClash env.md (rowNames p) → NoClash env.md al.attrs → NoClash env.md al'.attrs →
        (step env cd .cp (run env cd .cp w [.params mpkID mskID pr, .keygen (.attrs al) keyID mpkID mskID kr,
          .encrypt j mpkID (.policy p) m er]) (.decrypt keyID j : Call q G1 G2)).1 = .ok (.plain none m) ∧
        (step env cd .cp (run env cd .cp w [.params mpkID mskID pr, .keygen (.attrs al) keyID mpkID mskID kr,
          .encrypt j mpkID (.policy p) m er]) (.keygen (.attrs al') keyID mpkID mskID kr')).1 = .ok (.code none) ∧
        (step env cd .cp (run env cd .cp w [.params mpkID mskID pr, .keygen (.attrs al) keyID mpkID mskID kr,
          .encrypt j mpkID (.policy p) m er, .keygen (.attrs al') keyID mpkID mskID kr']) (.decrypt keyID j : Call q G1 G2)).1 =
            .ok (.plain (some .decryptionFailed) [])) := by
  obtain ⟨p, al, t1, t2, H1⟩ := C141_cp_key_first env hb hnd hmd cd w mpkID mskID keyID pr kr er s l e a hs hl hpct j m hgen [] [] []
    (by simp) (by simp) (by simp)
  obtain ⟨al', t3, -⟩ := listed hl'
  refine ⟨p, al, al', t1, t2, t3, fun n1 n2 n3 => ?_⟩
  obtain ⟨p', al2, u1, u2, H2⟩ := C141_cp_ciphertext_first env hb hnd hmd cd w mpkID mskID keyID pr kr' er s l' e a' hs hl' hpct j m hgen
    [.keygen (.attrs al) keyID mpkID mskID kr] [] [] (by simp [SparesPub, SparesSec, hid]) (by simp) (by simp)
  rw [t1] at u1; rw [t3] at u2; cases u1; cases u2
  exact ⟨(H1 n1 n2).2.2.1 ht, (H2 n1 n3).2.1, (H2 n1 n3).2.2.2 hf⟩

/-! ### Concrete cases -/

namespace PersistEx

/-- An empty context. -/
def w0 : World (ZMod 5) (ZMod 5) (ZMod 5) := ⟨⟨101, false, {}⟩, fun _ => {}⟩

theorem gen0 (S : StdSort) (cd : Codec (ZMod 5) (ZMod 5) (ZMod 5)) (sch : Scheme) (pr : ParamRand 5 (ZMod 5) (ZMod 5)) :
    (step (Toy.env Toy.mk0 S) cd sch w0 (.params b!"mpk" b!"msk" pr)).1 = .ok (.code none) := by
  obtain ⟨c1, h⟩ := Toy.gen Toy.mk0 S sch pr
  have hv := C117_values (Toy.env Toy.mk0 S) cd sch w0 [] (.params b!"mpk" b!"msk" pr) (fun h => h)
  refine hv.trans ?_
  show (after w0 _ (generateParams (Toy.env Toy.mk0 S) sch (⟨101, false, {}⟩ : Ctx (ZMod 5) (ZMod 5) (ZMod 5)) b!"mpk" b!"msk" pr)).1 = _
  rw [h]
  rfl

/-- Before the key is issued the program tries to decrypt with the master key, before the encryption it loads bytes from outside and
issues another key, and before the decryption it deletes that key and overwrites another ciphertext: the message comes out. -/
example (S : StdSort) (cd : Codec (ZMod 5) (ZMod 5) (ZMod 5)) (pr : ParamRand 5 (ZMod 5) (ZMod 5)) (kr kr' er : Rand 5)
    (blob blob' rnd m : Bytes) (al' : AttrList) :
    ∃ p al, Decides True m (step (Toy.env Toy.mk0 S) cd .cp (run (Toy.env Toy.mk0 S) cd .cp w0 (.params b!"mpk" b!"msk" pr ::
      [.decrypt b!"msk" 7, .exportKey b!"msk"] ++ .keygen (.attrs al) b!"dk" b!"mpk" b!"msk" kr ::
      [.loadKey b!"x" blob rnd .sec, .keygen (.attrs al') b!"y" b!"mpk" b!"msk" kr'] ++ .encrypt 1 b!"mpk" (.policy p) m er ::
      [.deleteKey b!"y", .loadCt 2 blob'])) (.decrypt b!"dk" 1 : Call 5 (ZMod 5) (ZMod 5))).1 := by
  obtain ⟨p, al, h1, h2, h3⟩ := C141_cp_key_first (q := 5) (Toy.env Toy.mk0 S) (Toy.bilinear Toy.mk0 S) rfl (Toy.digest Toy.mk0 S) cd w0
    b!"mpk" b!"msk" b!"dk" pr kr er _ _ _ _ (Toy.text3 Toy.mk0) (Toy.list3 Toy.mk0) Toy.pct3 1 m (gen0 S cd .cp pr)
    [.decrypt b!"msk" 7, .exportKey b!"msk"] [.loadKey b!"x" blob rnd .sec, .keygen (.attrs al') b!"y" b!"mpk" b!"msk" kr']
    [.deleteKey b!"y", .loadCt 2 blob'] (by simp [SparesPub, SparesSec])
    (by simp only [List.mem_cons, List.not_mem_nil, or_false, forall_eq_or_imp, forall_eq, SparesPub, SparesSec]; decide)
    (by simp only [List.mem_cons, List.not_mem_nil, or_false, forall_eq_or_imp, forall_eq, SparesSec, SparesSlot]; decide)
  refine ⟨p, al, ?_⟩
  obtain ⟨-, -, h4⟩ := h3 (by rw [Toy.names3 h1]; exact Toy.short_noClash (by decide)) (by rw [Toy.attrs3 Toy.mk0 h2]; exact Toy.short_noClash (by decide))
  exact ⟨fun _ => h4.1 (Toy.true3 Toy.mk0), fun h => absurd trivial h⟩

/-- The hypotheses of `C141_guard_needed` are met. -/
example (S : StdSort) (cd : Codec (ZMod 5) (ZMod 5) (ZMod 5)) (pr : ParamRand 5 (ZMod 5) (ZMod 5)) :
    PolicyText Toy.mk0 b!"a and (b or c)" Toy.e3 ∧ ListText Toy.mk0 b!"|a|c" Toy.a3 ∧ ListText Toy.mk0 b!"|b|c" Toy.a4 ∧
    Toy.e3.trueFor Toy.mk0 Toy.a3 ∧ ¬ Toy.e3.trueFor Toy.mk0 Toy.a4 ∧
    (step (Toy.env Toy.mk0 S) cd .cp w0 (.params b!"mpk" b!"msk" pr)).1 = .ok (.code none) :=
  ⟨Toy.text3 _, Toy.list3 _, Toy.list4 _, Toy.true3 _, Toy.false4 _, gen0 S cd .cp pr⟩

end PersistEx
end Persist
end Abe
