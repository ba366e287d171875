import Verif.Proof.ContextMemoryKey
/-! Encryption. -/
set_option linter.unusedSimpArgs false
set_option linter.unusedSectionVars false
set_option autoImplicit false
namespace Abe
namespace Cm
open Live (Mut lift asZP asG1 asG2 asGT asBytes Two mapRes)
open Scheme
open Mem (Store Cell Heap Ptrs SimR Agree WRel Values at_ Ghost stored under overwritten putAll)
variable {G1 G2 GT : Type}

section Calls
variable {n : Nat} {v : Values G1 G2 GT} {w : Held G1 G2 GT} {L : List (Cell G1 G2 GT)}
variable {q : Nat} [Fact q.Prime]
variable [AddCommGroup G1] [Module (ZMod q) G1] [AddCommGroup G2] [Module (ZMod q) G2] [AddCommGroup GT]
  [Module (ZMod q) GT]

/-- The body of encryption and one more component: names that differ leave one buffer behind. -/
theorem tr_enc (env : Env G1 G2 GT) (sch : Scheme) (c : Ctx G1 G2 GT) (j : Nat) (mpkID : Bytes) (input : FInput) (plaintext : Bytes) (r : Rand q)
    (s : Two G1 G2 GT) :
    ∃ D, (encBody get1 fill env sch c input r (s, ([], L))).2.2.2 = L ++ D ∧
      (distinct env (.encrypt j mpkID input plaintext r : Live.Call q G1 G2) →
        D.length = oneIfOk (encBody get1 fill env sch c input r (s, ([], L))).1 ∧
        (isOk (encBody get1 fill env sch c input r (s, ([], L))).1 = true →
          under (encBody get1 fill env sch c input r (s, ([], L))).2.2.1 b!"_ED" = [])) := by
  have key : ∀ {N : List Bytes} {x : Res Bytes × Desk G1 G2 GT}, TrRes N 1 (s, ([], L)) x →
      (distinct env (.encrypt j mpkID input plaintext r : Live.Call q G1 G2) → (N ++ [b!"_ED"]).Nodup) →
      ∃ D, x.2.2.2 = L ++ D ∧ (distinct env (.encrypt j mpkID input plaintext r : Live.Call q G1 G2) →
        D.length = oneIfOk x.1 ∧ (isOk x.1 = true → under x.2.2.1 b!"_ED" = [])) := by
    rintro N x ⟨S, B, h1, h2, h3, h4, h5⟩ hd
    refine ⟨overwritten [] S ++ B, by rw [h5, List.append_assoc], fun hh => ?_⟩
    have hn := hd hh
    have ho : overwritten ([] : Container G1 G2 GT) S = [] :=
      Mem.overwritten_fresh S [] trivial (h1.sublist.nodup (List.nodup_append.mp hn).1) fun _ _ => rfl
    refine ⟨?_, fun hok => ?_⟩
    · rw [ho, List.nil_append, h2]
      cases x.1 <;> rfl
    · have h6 : overwritten ([] : Container G1 G2 GT) (S ++ [(b!"_ED", .null)]) = [] :=
        Mem.overwritten_fresh _ [] trivial (by
          rw [List.map_append, h3 hok]; exact hn) fun _ _ => rfl
      rw [Mem.overwritten_append, ho] at h6
      rw [h4]
      have : overwritten (putAll ([] : Container G1 G2 GT) S) [(b!"_ED", Obj.null)] = under (putAll [] S) b!"_ED" := by
        simp [overwritten]
      rw [← this]; exact h6
  have stop : ∃ D, (s, (([] : Container G1 G2 GT), L)).2.2 = L ++ D ∧
      (distinct env (.encrypt j mpkID input plaintext r : Live.Call q G1 G2) →
        D.length = oneIfOk (.throw .invalidInput : Res Bytes) ∧
        (isOk (.throw .invalidInput : Res Bytes) = true → under ([] : Container G1 G2 GT) b!"_ED" = [])) :=
    ⟨[], by simp, fun _ => ⟨rfl, fun h => by cases h⟩⟩
  cases sch with
  | cp =>
    cases input with
    | attrs l => exact stop
    | policy p =>
      exact key (tr_cpEncBody env c p r _) fun hd => Mem.ctNames_nodup (sch := .cp) (input := .policy p) hd.2 hd.1
    | null => exact stop
  | kp =>
    cases input with
    | attrs l =>
      exact key (tr_kpEncBody env c l r _) fun hd => Mem.ctNames_nodup (sch := .kp) (input := .attrs l) hd.2 hd.1
    | policy p => exact stop
    | null => exact stop

/-- The body of encryption. -/
theorem enc_run (env : Env G1 G2 GT) (cd : Codec G1 G2 GT) (sch : Scheme) (c c' : Ctx G1 G2 GT) (hc : c'.ready = c.ready) (j : Nat)
    (mpkID : Bytes) (input : FInput) (plaintext : Bytes) (r : Rand q) {i k : Nat} {a : Container G1 G2 GT} (hi : at_ v i = some a)
    (hk : at_ v k = some []) (hik : i ≠ k) :
    ∃ z v' D, encBody ((onBook cd).get i) ((onBook cd).store k) env sch c' input r (v, L) = (z, v', L ++ D) ∧
      (distinct env (.encrypt j mpkID input plaintext r : Live.Call q G1 G2) → D.length = oneIfOk z ∧
        (isOk z = true → under (vals v' k) b!"_ED" = [])) ∧
      (Live.encBody env sch c input r {} (a, [])).1 = mapRes (fun K => (K, { ({} : Ciphertext G1 G2 GT) with alg := c.alg, comps := vals v' k })) z ∧
      (Live.encBody env sch c input r {} (a, [])).2.1 = vals v' i ∧
      at_ v' k = some (vals v' k) ∧
      (∀ x ∈ [i, k], (at_ v' x).isSome) ∧ ∀ x, x ∉ [i, k] → at_ v' x = at_ v x := by
  have hr : On2 v i k (v, L) ((a, []), ([], L)) := ⟨hi, hk, fun _ _ _ => rfl, rfl⟩
  obtain ⟨e1, e2⟩ := sim_encBody (on2_get1 cd hik) (on2_fill cd hik) env sch c' input r _ _ hr
  obtain ⟨q1, q2⟩ := eqv_encBody (s := (a, [])) env sch c c' hc input r {} L
  obtain ⟨D, d1, d2⟩ := tr_enc (L := L) env sch c' j mpkID input plaintext r (a, [])
  refine ⟨_, _, D, Prod.ext e1 (Prod.ext rfl (e2.lost.trans d1)), ?_, ?_, ?_, ?_, ?_, ?_⟩
  · intro hd
    refine ⟨(d2 hd).1, fun hok => ?_⟩
    rw [vals_of e2.out]
    exact (d2 hd).2 hok
  · refine q1.trans ?_
    rw [vals_of e2.out]
  · rw [q2]; exact (vals_of e2.one).symm
  · rw [vals_of e2.out]; exact e2.out
  · intro x hx
    simp only [List.mem_cons, List.not_mem_nil, or_false] at hx
    rcases hx with rfl | rfl
    · rw [e2.one]; rfl
    · rw [e2.out]; rfl
  · intro x hx
    simp only [List.mem_cons, List.not_mem_nil, or_false, not_or] at hx
    exact e2.rest x hx.1 hx.2

/-- What encryption answers with the ciphertext `ct`. -/
def encOut (ct : Ciphertext G1 G2 GT) : Res (Option Err) → Res (Except Err (Ciphertext G1 G2 GT))
  | .ok none => .ok (.ok ct)
  | .ok (some e) => .ok (.error e)
  | .throw e => .throw e
  | .ub => .ub
  | .abort => .abort

/-- Encryption of the plaintext with the key. -/
def masked (env : Env G1 G2 GT) (plaintext : Bytes) (x : Res (Bytes × Ciphertext G1 G2 GT)) : Res (Except Err (Ciphertext G1 G2 GT)) :=
  match caught x with
  | .ok (.error e) => .ok (.error e)
  | .ok (.ok (K, ct1)) => (do
      let x ← BS.xorAssign plaintext (hashFromBytes env.md K plaintext.length schemeHashPrefix)
      let d ← Container.setComponent ct1.comps b!"_ED" (.bytes x)
      .ok (.ok { ct1 with comps := d }))
  | .throw e => .throw e
  | .ub => .ub
  | .abort => .abort

/-- Encryption into a new ciphertext. -/
theorem into_run (env : Env G1 G2 GT) (cd : Codec G1 G2 GT) (sch : Scheme) (c c' : Ctx G1 G2 GT) (hc : c'.ready = c.ready) (j : Nat)
    (mpkID : Bytes) (input : FInput) (plaintext : Bytes) (r : Rand q) {i k : Nat} {a : Container G1 G2 GT} (hi : at_ v i = some a)
    (hk : at_ v k = some []) (hik : i ≠ k) :
    ∃ z v' D, encryptInto (onBook cd) env sch c' i k input plaintext r (v, L) = (z, v', L ++ D) ∧
      (distinct env (.encrypt j mpkID input plaintext r : Live.Call q G1 G2) → D.length = oneIfOk (Live.encBody env sch c input r {} (a, [])).1) ∧
      masked env plaintext (Live.encBody env sch c input r {} (a, [])).1 = encOut { ({} : Ciphertext G1 G2 GT) with alg := c.alg, comps := vals v' k } z ∧
      (Live.encBody env sch c input r {} (a, [])).2.1 = vals v' i ∧
      (∀ x ∈ [i, k], (at_ v' x).isSome) ∧ ∀ x, x ∉ [i, k] → at_ v' x = at_ v x := by
  obtain ⟨z, v', D, h1, h2, h3, h4, h5, h6, h7⟩ := enc_run (L := L) env cd sch c c' hc j mpkID input plaintext r hi hk hik
  have ho : oneIfOk (Live.encBody env sch c input r {} (a, [])).1 = oneIfOk z := by rw [h3]; cases z <;> rfl
  rw [ho, h4, h3]
  rcases Live.caught_cases z with ⟨K, rfl, hz⟩ | ⟨e, rfl, hz⟩ | ⟨e, rfl, _, hz⟩ | ⟨rfl, hz⟩ | ⟨rfl, hz⟩
  · cases hx : BS.xorAssign plaintext (hashFromBytes env.md K plaintext.length schemeHashPrefix) with
    | ok x =>
      have hw : (onBook cd).set k b!"_ED" (.bytes x) (v', L ++ D) =
          (.ok (), v'.set k (some (SMap.insert b!"_ED" (stored (.bytes x)) (vals v' k))), L ++ D ++ under (vals v' k) b!"_ED") := by
        show within k _ _ = _
        rw [within_at (t := (v', L ++ D)) h5, Mem.ghost_set (nB x)]
      have hlt := at_lt h5
      have ek : at_ (v'.set k (some (SMap.insert b!"_ED" (stored (.bytes x)) (vals v' k)))) k = some (SMap.insert b!"_ED" (stored (.bytes x)) (vals v' k)) := by
        rw [at_set, if_pos ⟨rfl, hlt⟩]
      refine ⟨.ok none, v'.set k (some (SMap.insert b!"_ED" (stored (.bytes x)) (vals v' k))), D ++ under (vals v' k) b!"_ED", ?_, ?_, ?_, ?_, ?_, ?_⟩
      · unfold encryptInto
        simp only [mut_bind, Mut.bind, attempt, h1, hz, lift, hx, hw, List.append_assoc]
      · intro hd
        rw [(h2 hd).2 rfl, List.append_nil, (h2 hd).1]
      · rw [vals_of ek]
        simp only [masked, mapRes, caught, hx, Res.ok_bind, Mem.set_stored (nB x)]
        rfl
      · exact (vals_eq (by rw [at_set, if_neg (fun e => hik e.1)])).symm
      · intro y hy
        by_cases e : y = k
        · subst e; rw [ek]; rfl
        · rw [at_set, if_neg (fun h => e h.1)]; exact h6 y hy
      · intro y hy
        have e : y ≠ k := by rintro rfl; exact hy (by simp)
        rw [at_set, if_neg (fun h => e h.1)]; exact h7 y hy
    | throw e =>
      refine ⟨.throw e, v', D, ?_, fun hd => (h2 hd).1, ?_, rfl, h6, h7⟩
      · unfold encryptInto
        simp only [mut_bind, Mut.bind, attempt, h1, hz, lift, hx]
      · simp only [masked, mapRes, caught, hx]; rfl
    | ub =>
      refine ⟨.ub, v', D, ?_, fun hd => (h2 hd).1, ?_, rfl, h6, h7⟩
      · unfold encryptInto
        simp only [mut_bind, Mut.bind, attempt, h1, hz, lift, hx]
      · simp only [masked, mapRes, caught, hx]; rfl
    | abort =>
      refine ⟨.abort, v', D, ?_, fun hd => (h2 hd).1, ?_, rfl, h6, h7⟩
      · unfold encryptInto
        simp only [mut_bind, Mut.bind, attempt, h1, hz, lift, hx]
      · simp only [masked, mapRes, caught, hx]; rfl
  · refine ⟨.ok (some e), v', D, ?_, fun hd => (h2 hd).1, ?_, rfl, h6, h7⟩
    · unfold encryptInto
      simp only [mut_bind, Mut.bind, attempt, h1, hz, lift]
    · cases e <;> first | rfl | cases hz
  · refine ⟨.throw e, v', D, ?_, fun hd => (h2 hd).1, ?_, rfl, h6, h7⟩
    · unfold encryptInto
      simp only [mut_bind, Mut.bind, attempt, h1, hz, lift]
    · cases e <;> first | rfl | cases hz
  · refine ⟨.ub, v', D, ?_, fun hd => (h2 hd).1, rfl, rfl, h6, h7⟩
    unfold encryptInto
    simp only [mut_bind, Mut.bind, attempt, h1, hz, lift]
  · refine ⟨.abort, v', D, ?_, fun hd => (h2 hd).1, rfl, rfl, h6, h7⟩
    unfold encryptInto
    simp only [mut_bind, Mut.bind, attempt, h1, hz, lift]

theorem fine_encrypt (env : Env G1 G2 GT) (cd : Codec G1 G2 GT) (sch : Scheme) (h : Inv n [] v w) {j : Nat} (hj : j < n) (mpkID : Bytes)
    (input : FInput) (plaintext : Bytes) (r : Rand q) :
    Fine n L (fun D => distinct env (.encrypt j mpkID input plaintext r : Live.Call q G1 G2) →
        D.length = left env cd sch (asValues (vals v) w) (.encrypt j mpkID input plaintext r : Live.Call q G1 G2))
      (Live.step env cd sch (asValues (vals v) w) (.encrypt j mpkID input plaintext r : Live.Call q G1 G2))
      (step (onBook cd) env cd sch (.encrypt j mpkID input plaintext r : Live.Call q G1 G2) ((v, L), w)) := by
  have h1 := h.pub mpkID
  have m1 := pub_map (keyOf (vals v)) w.ks mpkID
  have e0 : (asValues (vals v) w).ctx.ks = mapKeys (keyOf (vals v)) w.ks := rfl
  by_cases hin : Live.encInput sch input = false
  · have e2 : encrypt (onBook cd) env sch j mpkID input plaintext r ((v, L), w) = (.ok (some .invalidInput), (v, L), w) := by
      unfold encrypt; simp only [if_pos hin]; rfl
    have e1 : step (onBook cd) env cd sch (.encrypt j mpkID input plaintext r : Live.Call q G1 G2) ((v, L), w) = _ := ret_run e2
    rw [e1]
    refine ⟨by simp only [Live.step, Live.encrypt, if_pos hin]; rfl, fun _ => ⟨h, by simp only [Live.step, Live.encrypt, if_pos hin], [], by simp, fun _ => ?_⟩⟩
    simp only [left]
    cases ((asValues (vals v) w).ctx.ks.getPublicKey mpkID).1 with
    | none => rfl
    | some k => cases sch <;> cases input <;> first | rfl | cases hin
  cases hp : (w.ks.getPublicKey mpkID).1 with
  | none =>
    rw [hp] at m1
    have e2 : encrypt (onBook cd) env sch j mpkID input plaintext r ((v, L), w) = (.ok (some .invalidParams), (v, L),
        { w with ks := (w.ks.getPublicKey mpkID).2 }) := by
      unfold encrypt
      simp only [if_neg hin, mut_bind, Mut.bind, ctx, look, getPublicKey, hp, lift]
    have e1 : step (onBook cd) env cd sch (.encrypt j mpkID input plaintext r : Live.Call q G1 G2) ((v, L), w) = _ := ret_run e2
    rw [e1]
    refine ⟨?_, fun _ => ⟨h1, ?_, [], by simp, fun _ => ?_⟩⟩
    · simp only [Live.step, Live.encrypt, if_neg hin, e0, m1, Option.map_none]; rfl
    · simp only [Live.step, Live.encrypt, if_neg hin, e0, m1, Option.map_none]; rfl
    · simp only [left, e0, m1, Option.map_none]; rfl
  | some mpk =>
  rw [hp] at m1
  have pp : pointer mpkID (w.ks.getPublicKey mpkID).2.pub = some mpk := pub_pointer hp
  have op : mpk.cont ∈ owners (w.ks.getPublicKey mpkID).2 := List.mem_append_left _ (pointer_mem pp)
  have ai := h1.some (i := mpk.cont) (mem_owners_held op)
  have li := at_lt ai
  have hik : mpk.cont ≠ v.length := by omega
  have bi : at_ (v ++ [some []]) mpk.cont = some (vals v mpk.cont) := by rw [at_append, if_neg hik, ai]
  obtain ⟨z, v', D, hz, hD, hl, hl2, hsome, hrest⟩ := into_run (L := L) env cd sch (asValues (vals v) w).ctx { alg := w.alg, ready := w.ready } rfl j
    mpkID input plaintext r bi (at_new v) hik
  have h3 : Inv n [v.length] v' { w with ks := (w.ks.getPublicKey mpkID).2 } := by
    refine h1.new.same [mpk.cont, v.length] (fun x hx => ⟨?_, hsome x hx⟩) hrest
    simp only [List.mem_cons, List.not_mem_nil, or_false] at hx
    rcases hx with rfl | rfl
    · exact List.mem_append_right _ (mem_owners_held op)
    · simp
  have hown : ∀ x ∈ held n { w with ks := (w.ks.getPublicKey mpkID).2 }, x ≠ v.length := by
    rintro x hx rfl
    exact absurd (at_lt (h1.some (i := v.length) hx)) (lt_irrefl _)
  have agree : ∀ x ∈ held n { w with ks := (w.ks.getPublicKey mpkID).2 }, x ≠ mpk.cont → vals v' x = vals v x := fun x hx h1 => vals_eq (by
    rw [hrest x (by simp [h1, hown x hx]), at_append, if_neg (hown x hx)])
  have hks : Live.setPub (mapKeys (keyOf (vals v)) (w.ks.getPublicKey mpkID).2) mpkID (vals v' mpk.cont) =
      mapKeys (keyOf (vals v')) (w.ks.getPublicKey mpkID).2 :=
    setPub_map h1.order h1.owners_nodup pp (fun i hi hne => (agree i (mem_owners_held hi) hne).symm)
  have hct : ctsOf (vals v') w.cts = ctsOf (vals v) w.cts := ctsOf_congr h1.top fun i hi => by
    have hd := (List.nodup_append.mp (List.nodup_append.mp h1.nodup).2.1).2.2
    exact agree i (List.mem_append_right _ hi) (fun e => hd _ op _ hi e.symm)
  have hval : asValues (vals v') { w with ks := (w.ks.getPublicKey mpkID).2 } =
      ⟨{ alg := w.alg, ready := w.ready, ks := Live.setPub (mapKeys (keyOf (vals v)) (w.ks.getPublicKey mpkID).2) mpkID (vals v' mpk.cont) },
        ctsOf (vals v) w.cts⟩ := by
    rw [asValues_eq, hct, hks]
  have hor := orElse_run cd hz (hsome v.length (by simp))
  have hleft : left env cd sch (asValues (vals v) w) (.encrypt j mpkID input plaintext r : Live.Call q G1 G2) =
      oneIfOk (Live.encBody env sch (asValues (vals v) w).ctx input r {} (vals v mpk.cont, [])).1 := by
    simp only [left, e0, m1, Option.map_some]; rfl
  rw [← hleft] at hD
  have hg : Live.encrypt env sch (asValues (vals v) w).ctx mpkID input plaintext r {} =
      (encOut { ({} : Ciphertext G1 G2 GT) with alg := w.alg, comps := vals v' v.length } z,
        (asValues (vals v') { w with ks := (w.ks.getPublicKey mpkID).2 }).ctx) := by
    rw [hval]
    have : encOut { ({} : Ciphertext G1 G2 GT) with alg := w.alg, comps := vals v' v.length } z =
      masked env plaintext (Live.encBody env sch (asValues (vals v) w).ctx input r {} (vals v mpk.cont, [])).1 := hl.symm
    rw [this, ← hl2]
    unfold Live.encrypt masked
    simp only [if_neg hin, e0, m1, Option.map_some]
    have : (keyOf (vals v) mpk).comps = vals v mpk.cont := rfl
    rw [this]
    rcases caught (Live.encBody env sch (asValues (vals v) w).ctx input r {} (vals v mpk.cont, [])).1 with (_ | ⟨K, ct⟩) | _ | _ | _ <;> rfl
  have hgen : encrypt (onBook cd) env sch j mpkID input plaintext r ((v, L), w) = Mut.bind (fun s : Book G1 G2 GT × Held G1 G2 GT => (z, (cleared z v' v.length, L ++ D), s.2))
      (fun res => match res with
      | some e => do
        mem ((onBook cd).drop v.length)
        lift (.ok (some e))
      | none => do
        putSlot (onBook cd) j ({ ({} : Ciphertext G1 G2 GT) with alg := w.alg }, v.length)
        lift (.ok none)) ((v, L), { w with ks := (w.ks.getPublicKey mpkID).2 }) := by
    unfold encrypt
    simp only [if_neg hin, mut_bind, Mut.bind, ctx, look, getPublicKey, hp, mem]
    have en : (onBook cd).new (v, L) = (.ok v.length, v ++ [some []], L) := rfl
    simp only [en, hor]
    rcases z with (_ | _) | _ | _ | _ <;> rfl
  rcases z with (_ | e) | e | _ | _
  · obtain ⟨v2, e5, i5, k5⟩ := putSlot_run cd hj h3 { ({} : Ciphertext G1 G2 GT) with alg := w.alg } (L ++ D)
    simp only [mut_bind, Mut.bind, cleared, e5, lift] at hgen
    have e1 : step (onBook cd) env cd sch (.encrypt j mpkID input plaintext r : Live.Call q G1 G2) ((v, L), w) = _ := ret_run hgen
    rw [e1]
    simp only [encOut] at hg
    refine ⟨by simp only [Live.step, hg]; rfl, fun _ => ⟨i5, k5.trans ?_, D, rfl, hD⟩⟩
    simp only [Live.step, hg, hval]
    rfl
  · have hdrop := drop_run cd (hsome v.length (by simp)) (L ++ D)
    simp only [mut_bind, Mut.bind, cleared, mem, hdrop, lift] at hgen
    have e1 : step (onBook cd) env cd sch (.encrypt j mpkID input plaintext r : Live.Call q G1 G2) ((v, L), w) = _ := ret_run hgen
    rw [e1]
    simp only [encOut] at hg
    refine ⟨by simp only [Live.step, hg]; rfl, fun _ => ⟨h3.gone, h3.view_gone.trans ?_, D, rfl, hD⟩⟩
    simp only [Live.step, hg, hval]
    rfl
  · simp only [Mut.bind, cleared] at hgen
    have e1 : step (onBook cd) env cd sch (.encrypt j mpkID input plaintext r : Live.Call q G1 G2) ((v, L), w) = _ := ret_run hgen
    rw [e1]
    simp only [encOut] at hg
    refine ⟨by simp only [Live.step, hg]; rfl, fun _ => ⟨h3.gone, h3.view_gone.trans ?_, D, rfl, hD⟩⟩
    simp only [Live.step, hg, hval]
    rfl
  · simp only [Mut.bind, cleared] at hgen
    have e1 : step (onBook cd) env cd sch (.encrypt j mpkID input plaintext r : Live.Call q G1 G2) ((v, L), w) = _ := ret_run hgen
    rw [e1]
    simp only [encOut] at hg
    exact ⟨by simp only [Live.step, hg]; rfl, fun h => h.elim⟩
  · simp only [Mut.bind, cleared] at hgen
    have e1 : step (onBook cd) env cd sch (.encrypt j mpkID input plaintext r : Live.Call q G1 G2) ((v, L), w) = _ := ret_run hgen
    rw [e1]
    simp only [encOut] at hg
    exact ⟨by simp only [Live.step, hg]; rfl, fun h => h.elim⟩

end Calls
end Cm
end Abe
