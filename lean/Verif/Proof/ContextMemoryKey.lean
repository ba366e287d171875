import Verif.Proof.ContextMemoryRun
/-! Key generation. -/
set_option linter.unusedSimpArgs false
set_option linter.unusedSectionVars false
set_option autoImplicit false
namespace Abe
namespace Cm
open Live (Mut lift asZP asG1 asG2 asGT asBytes Two mapRes)
open Scheme
open Mem (Store Cell Heap Ptrs SimR Agree WRel Values at_ Ghost stored under overwritten putAll)
variable {G1 G2 GT : Type}

section Calls
variable {n : Nat} {v : Values G1 G2 GT} {w : Held G1 G2 GT} {L : List (Cell G1 G2 GT)}
variable {q : Nat} [Fact q.Prime]
variable [AddCommGroup G1] [Module (ZMod q) G1] [AddCommGroup G2] [Module (ZMod q) G2] [AddCommGroup GT]
  [Module (ZMod q) GT]

/-- Names that differ leave nothing behind in a new container. -/
theorem TrRes.fresh {α : Type} {N : List Bytes} {b : Nat} {s : Two G1 G2 GT} {x : Res α × Desk G1 G2 GT} (h : TrRes N b (s, ([], L)) x) :
    ∃ D, x.2.2.2 = L ++ D ∧ (N.Nodup → D.length = if isOk x.1 then b else 0) := by
  obtain ⟨S, B, h1, h2, _, _, h5⟩ := h
  refine ⟨overwritten [] S ++ B, by rw [h5, List.append_assoc], fun hn => ?_⟩
  have : overwritten ([] : Container G1 G2 GT) S = [] :=
    Mem.overwritten_fresh S [] trivial (h1.sublist.nodup hn) fun _ _ => rfl
  rw [this, List.nil_append, h2]

theorem tr_key (env : Env G1 G2 GT) (sch : Scheme) (c : Ctx G1 G2 GT) (input : FInput) (keyID mpkID mskID : Bytes) (r : Rand q) (s : Two G1 G2 GT) :
    ∃ D, (keyBody get1 get2 fill env sch c input r (s, ([], L))).2.2.2 = L ++ D ∧
      (distinct env (.keygen input keyID mpkID mskID r : Live.Call q G1 G2) → D = []) := by
  have key : ∀ {N : List Bytes} {x : Res Unit × Desk G1 G2 GT}, TrRes N 0 (s, ([], L)) x →
      (distinct env (.keygen input keyID mpkID mskID r : Live.Call q G1 G2) → N.Nodup) →
      ∃ D, x.2.2.2 = L ++ D ∧ (distinct env (.keygen input keyID mpkID mskID r : Live.Call q G1 G2) → D = []) := by
    intro N x h hd
    obtain ⟨D, h1, h2⟩ := h.fresh
    refine ⟨D, h1, fun hh => List.eq_nil_of_length_eq_zero ?_⟩
    rw [h2 (hd hh)]; split <;> rfl
  have stop : ∃ D, (s, (([] : Container G1 G2 GT), L)).2.2 = L ++ D ∧
      (distinct env (.keygen input keyID mpkID mskID r : Live.Call q G1 G2) → D = []) := ⟨[], by simp, fun _ => rfl⟩
  cases sch with
  | cp =>
    cases input with
    | attrs l => exact key (tr_cpKeyBody env c l r.x _) fun hd => Mem.cpKeyNames_nodup hd.1
    | policy p => exact stop
    | null => exact stop
  | kp =>
    cases input with
    | attrs l => exact stop
    | policy p =>
      obtain ⟨y, hy⟩ := tr_kpKeyBody env c p r.tape r.r (s, (([] : Container G1 G2 GT), L))
      exact key hy fun hd => Mem.kpKeyNames_nodup (hd.2 y)
    | null => exact stop

/-- The body of key generation. -/
theorem key_run (env : Env G1 G2 GT) (cd : Codec G1 G2 GT) (sch : Scheme) (c c' : Ctx G1 G2 GT) (hc : c'.ready = c.ready) (input : FInput)
    (keyID mpkID mskID : Bytes) (r : Rand q) {i j k : Nat} {a b : Container G1 G2 GT} (hi : at_ v i = some a) (hj : at_ v j = some b)
    (hk : at_ v k = some []) (hij : i ≠ j) (hik : i ≠ k) (hjk : j ≠ k) :
    ∃ z v' D, keyBody ((onBook cd).get i) ((onBook cd).get j) ((onBook cd).store k) env sch c' input r (v, L) = (z, v', L ++ D) ∧
      (distinct env (.keygen input keyID mpkID mskID r : Live.Call q G1 G2) → D = []) ∧
      Live.keyBody env sch c input r (a, b) = (mapRes (fun _ => vals v' k) z, (vals v' i, vals v' j)) ∧
      (∀ x ∈ [i, j, k], (at_ v' x).isSome) ∧ ∀ x, x ∉ [i, j, k] → at_ v' x = at_ v x := by
  have hr : On3 v i j k (v, L) ((a, b), ([], L)) := ⟨hi, hj, hk, fun _ _ _ _ => rfl, rfl⟩
  obtain ⟨e1, e2⟩ := sim_keyBody (on3_get1 cd hij hik) (on3_get2 cd hij hjk) (on3_fill cd hik hjk) env sch c' input r _ _ hr
  obtain ⟨q1, q2⟩ := eqv_keyBody (s := (a, b)) env sch c c' hc input r L
  obtain ⟨D, d1, d2⟩ := tr_key (L := L) env sch c' input keyID mpkID mskID r (a, b)
  refine ⟨_, _, D, Prod.ext e1 (Prod.ext rfl (e2.lost.trans d1)), d2, ?_, ?_, ?_⟩
  · refine Prod.ext (q1.trans ?_) (q2.trans (Prod.ext (vals_of e2.one).symm (vals_of e2.two).symm))
    rw [vals_of e2.out]
  · intro x hx
    simp only [List.mem_cons, List.not_mem_nil, or_false] at hx
    rcases hx with rfl | rfl | rfl
    · rw [e2.one]; rfl
    · rw [e2.two]; rfl
    · rw [e2.out]; rfl
  · intro x hx
    simp only [List.mem_cons, List.not_mem_nil, or_false, not_or] at hx
    exact e2.rest x hx.1 hx.2.1 hx.2.2

theorem fine_keygen (env : Env G1 G2 GT) (cd : Codec G1 G2 GT) (sch : Scheme) (h : Inv n [] v w) (input : FInput)
    (keyID mpkID mskID : Bytes) (r : Rand q) :
    Fine n L (fun D => distinct env (.keygen input keyID mpkID mskID r : Live.Call q G1 G2) → D = [])
      (Live.step env cd sch (asValues (vals v) w) (.keygen input keyID mpkID mskID r : Live.Call q G1 G2))
      (step (onBook cd) env cd sch (.keygen input keyID mpkID mskID r : Live.Call q G1 G2) ((v, L), w)) := by
  by_cases hin : Live.keyInput sch input = false
  · have e2 : generateKey (onBook cd) env sch input keyID mpkID mskID r ((v, L), w) = (.ok (some .invalidInput), (v, L), w) := by
      unfold generateKey; simp only [if_pos hin]; rfl
    have e1 : step (onBook cd) env cd sch (.keygen input keyID mpkID mskID r : Live.Call q G1 G2) ((v, L), w) = _ := ret_run e2
    rw [e1]
    exact ⟨by simp only [Live.step, Live.generateKey, if_pos hin], fun _ => ⟨h, by simp only [Live.step, Live.generateKey, if_pos hin], [], by simp, fun _ => rfl⟩⟩
  have h1 := h.pub mpkID
  have h2 := h1.sec mskID
  have m1 := pub_map (keyOf (vals v)) w.ks mpkID
  have m2 := sec_map (keyOf (vals v)) (w.ks.getPublicKey mpkID).2 mskID
  have e0 : (asValues (vals v) w).ctx.ks = mapKeys (keyOf (vals v)) w.ks := rfl
  have none_case : ((w.ks.getPublicKey mpkID).1 = none ∨ ((w.ks.getPublicKey mpkID).2.getSecretKey mskID).1 = none) →
      Fine n L (fun D => distinct env (.keygen input keyID mpkID mskID r : Live.Call q G1 G2) → D = [])
      (Live.step env cd sch (asValues (vals v) w) (.keygen input keyID mpkID mskID r : Live.Call q G1 G2))
      (step (onBook cd) env cd sch (.keygen input keyID mpkID mskID r : Live.Call q G1 G2) ((v, L), w)) := by
    intro hnone
    have e2 : generateKey (onBook cd) env sch input keyID mpkID mskID r ((v, L), w) = (.ok (some .invalidParams), (v, L),
        { w with ks := ((w.ks.getPublicKey mpkID).2.getSecretKey mskID).2 }) := by
      unfold generateKey
      simp only [if_neg hin, mut_bind, Mut.bind, ctx, look, getPublicKey, getSecretKey]
      rcases hnone with hn | hn
      · simp only [hn]; rfl
      · simp only [hn]; cases (w.ks.getPublicKey mpkID).1 <;> rfl
    have e1 : step (onBook cd) env cd sch (.keygen input keyID mpkID mskID r : Live.Call q G1 G2) ((v, L), w) = _ := ret_run e2
    rw [e1]
    have e3 : Live.generateKey env sch (asValues (vals v) w).ctx input keyID mpkID mskID r = (.ok (some .invalidParams),
        (asValues (vals v) { w with ks := ((w.ks.getPublicKey mpkID).2.getSecretKey mskID).2 }).ctx) := by
      unfold Live.generateKey
      simp only [if_neg hin, e0, m1, m2]
      rcases hnone with hn | hn
      · simp only [hn]; rfl
      · simp only [hn]; cases (w.ks.getPublicKey mpkID).1 <;> rfl
    exact ⟨by simp only [Live.step, e3], fun _ => ⟨h2, by simp only [Live.step, e3]; rfl, [], by simp, fun _ => rfl⟩⟩
  cases hp : (w.ks.getPublicKey mpkID).1 with
  | none => exact none_case (.inl hp)
  | some mpk =>
  cases hs : ((w.ks.getPublicKey mpkID).2.getSecretKey mskID).1 with
  | none => exact none_case (.inr hs)
  | some msk =>
  have pp : pointer mpkID ((w.ks.getPublicKey mpkID).2.getSecretKey mskID).2.pub = some mpk := pub_pointer hp
  have ps : pointer mskID ((w.ks.getPublicKey mpkID).2.getSecretKey mskID).2.sec = some msk := sec_pointer hs
  have op : mpk.cont ∈ owners ((w.ks.getPublicKey mpkID).2.getSecretKey mskID).2 := List.mem_append_left _ (pointer_mem pp)
  have os : msk.cont ∈ owners ((w.ks.getPublicKey mpkID).2.getSecretKey mskID).2 := List.mem_append_right _ (pointer_mem ps)
  have hij : mpk.cont ≠ msk.cont := (List.nodup_append.mp h2.owners_nodup).2.2 _ (pointer_mem pp) _ (pointer_mem ps)
  have ai := h2.some (i := mpk.cont) (mem_owners_held op)
  have aj := h2.some (i := msk.cont) (mem_owners_held os)
  have li := at_lt ai
  have lj := at_lt aj
  have hik : mpk.cont ≠ v.length := by omega
  have hjk : msk.cont ≠ v.length := by omega
  have bi : at_ (v ++ [some []]) mpk.cont = some (vals v mpk.cont) := by rw [at_append, if_neg hik, ai]
  have bj : at_ (v ++ [some []]) msk.cont = some (vals v msk.cont) := by rw [at_append, if_neg hjk, aj]
  obtain ⟨z, v', D, hz, hD, hl, hsome, hrest⟩ := key_run (L := L) env cd sch (asValues (vals v) w).ctx { alg := w.alg, ready := w.ready } rfl input
    keyID mpkID mskID r bi bj (at_new v) hij hik hjk
  have h3 : Inv n [v.length] v' { w with ks := ((w.ks.getPublicKey mpkID).2.getSecretKey mskID).2 } := by
    refine h2.new.same [mpk.cont, msk.cont, v.length] (fun x hx => ⟨?_, hsome x hx⟩) hrest
    simp only [List.mem_cons, List.not_mem_nil, or_false] at hx
    rcases hx with rfl | rfl | rfl
    · exact List.mem_append_right _ (mem_owners_held op)
    · exact List.mem_append_right _ (mem_owners_held os)
    · simp
  have hown : ∀ x ∈ held n { w with ks := ((w.ks.getPublicKey mpkID).2.getSecretKey mskID).2 }, x ≠ v.length := by
    rintro x hx rfl
    exact absurd (at_lt (h2.some (i := v.length) hx)) (lt_irrefl _)
  have agree : ∀ x ∈ held n { w with ks := ((w.ks.getPublicKey mpkID).2.getSecretKey mskID).2 }, x ≠ mpk.cont → x ≠ msk.cont →
      vals v' x = vals v x := fun x hx h1 h2 => vals_eq (by
    rw [hrest x (by simp [h1, h2, hown x hx]), at_append, if_neg (hown x hx)])
  have hks : Live.setSec (Live.setPub (mapKeys (keyOf (vals v)) ((w.ks.getPublicKey mpkID).2.getSecretKey mskID).2) mpkID (vals v' mpk.cont)) mskID
      (vals v' msk.cont) = mapKeys (keyOf (vals v')) ((w.ks.getPublicKey mpkID).2.getSecretKey mskID).2 := by
    have s1 := setPub_map (f := vals v) (g := fun x => if x = mpk.cont then vals v' mpk.cont else vals v x) h2.order h2.owners_nodup pp
      (fun i _ hi => by simp only [if_neg hi])
    have s2 := setSec_map (f := fun x => if x = mpk.cont then vals v' mpk.cont else vals v x) (g := vals v') h2.order h2.owners_nodup ps
      (fun i hi hne => by
        by_cases e : i = mpk.cont
        · subst e; simp only [if_pos]
        · simp only [if_neg e]
          exact (agree i (mem_owners_held hi) e hne).symm)
    simp only [if_pos] at s1
    rw [s1, s2]
  have hct : ctsOf (vals v') w.cts = ctsOf (vals v) w.cts := ctsOf_congr h2.top fun i hi => by
    have hd := (List.nodup_append.mp (List.nodup_append.mp h2.nodup).2.1).2.2
    exact agree i (List.mem_append_right _ hi) (fun e => hd _ op _ hi e.symm) (fun e => hd _ os _ hi e.symm)
  have hval : asValues (vals v') { w with ks := ((w.ks.getPublicKey mpkID).2.getSecretKey mskID).2 } =
      ⟨{ alg := w.alg, ready := w.ready, ks := Live.setSec (Live.setPub (mapKeys (keyOf (vals v)) ((w.ks.getPublicKey mpkID).2.getSecretKey mskID).2) mpkID
        (vals v' mpk.cont)) mskID (vals v' msk.cont) }, ctsOf (vals v) w.cts⟩ := by
    rw [asValues_eq, hct, hks]
  have hor := orElse_run cd hz (hsome v.length (by simp))
  have hg : ∀ res : Res (Except Err Unit), caught z = res → Live.generateKey env sch (asValues (vals v) w).ctx input keyID mpkID mskID r =
      match caught (mapRes (fun _ => vals v' v.length) z) with
      | .ok (.error e) => (.ok (some e), (asValues (vals v') { w with ks := ((w.ks.getPublicKey mpkID).2.getSecretKey mskID).2 }).ctx)
      | .ok (.ok comps) => (.ok none, { (asValues (vals v') { w with ks := ((w.ks.getPublicKey mpkID).2.getSecretKey mskID).2 }).ctx with
          ks := (asValues (vals v') { w with ks := ((w.ks.getPublicKey mpkID).2.getSecretKey mskID).2 }).ctx.ks.addKey keyID (newKey w.alg keyID r.uid comps) .sec })
      | .throw e => (.throw e, (asValues (vals v') { w with ks := ((w.ks.getPublicKey mpkID).2.getSecretKey mskID).2 }).ctx)
      | .ub => (.ub, (asValues (vals v') { w with ks := ((w.ks.getPublicKey mpkID).2.getSecretKey mskID).2 }).ctx)
      | .abort => (.abort, (asValues (vals v') { w with ks := ((w.ks.getPublicKey mpkID).2.getSecretKey mskID).2 }).ctx) := by
    intro res _
    rw [hval]
    unfold Live.generateKey
    simp only [if_neg hin, e0, m1, m2, hp, hs, Option.map_some]
    have : (keyOf (vals v) mpk).comps = vals v mpk.cont := rfl
    rw [this]
    have : (keyOf (vals v) msk).comps = vals v msk.cont := rfl
    rw [this, hl]
    rcases caught (mapRes (fun _ => vals v' v.length) z) with (_ | _) | _ | _ | _ <;> rfl
  have hgen : generateKey (onBook cd) env sch input keyID mpkID mskID r ((v, L), w) = Mut.bind (fun s : Book G1 G2 GT × Held G1 G2 GT => (caught z, (cleared z v' v.length, L ++ D), s.2))
      (fun res => match res with
      | .error e => lift (.ok (some e))
      | .ok () => do
        addKey (onBook cd) keyID ⟨newKey w.alg keyID r.uid [], v.length⟩ .sec
        lift (.ok none)) ((v, L), { w with ks := ((w.ks.getPublicKey mpkID).2.getSecretKey mskID).2 }) := by
    unfold generateKey
    simp only [if_neg hin, mut_bind, Mut.bind, ctx, look, getPublicKey, getSecretKey, hp, hs, mem]
    have en : (onBook cd).new (v, L) = (.ok v.length, v ++ [some []], L) := rfl
    simp only [en, attempt, hor]
    rcases caught z with (_ | _) | _ | _ | _ <;> rfl
  have hfin := hg _ rfl
  have gone : ∀ e, z = .throw e → Inv n [] (cleared z v' v.length) { w with ks := ((w.ks.getPublicKey mpkID).2.getSecretKey mskID).2 } ∧
      asValues (vals (cleared z v' v.length)) { w with ks := ((w.ks.getPublicKey mpkID).2.getSecretKey mskID).2 } =
        asValues (vals v') { w with ks := ((w.ks.getPublicKey mpkID).2.getSecretKey mskID).2 } := fun e he => h3.cleared he
  rcases Live.caught_cases z with ⟨a, rfl, hc⟩ | ⟨e, rfl, hc⟩ | ⟨e, rfl, he, hc⟩ | ⟨rfl, hc⟩ | ⟨rfl, hc⟩
  · obtain ⟨v2, e5, i5, k5⟩ := addKey_run cd (id := keyID) (k := ⟨newKey w.alg keyID r.uid [], v.length⟩) .sec h3 (L ++ D)
    have hval1 := addKey_val i5 k5
    simp only [mut_bind, Mut.bind, hc, cleared, e5, lift] at hgen
    have e1 : step (onBook cd) env cd sch (.keygen input keyID mpkID mskID r : Live.Call q G1 G2) ((v, L), w) = _ := ret_run hgen
    rw [e1]
    have hfin' : Live.generateKey env sch (asValues (vals v) w).ctx input keyID mpkID mskID r = _ := hfin
    simp only [mapRes, caught] at hfin'
    refine ⟨by simp only [Live.step, hfin'], fun _ => ⟨i5, hval1.trans ?_, D, rfl, hD⟩⟩
    simp only [Live.step, hfin', hval]
    rfl
  · simp only [mut_bind, Mut.bind, hc, lift] at hgen
    have e1 : step (onBook cd) env cd sch (.keygen input keyID mpkID mskID r : Live.Call q G1 G2) ((v, L), w) = _ := ret_run hgen
    rw [e1]
    have hfin' : Live.generateKey env sch (asValues (vals v) w).ctx input keyID mpkID mskID r = _ := hfin
    have hc' : caught (mapRes (fun _ => vals v' v.length) (Res.throw e : Res Unit)) = .ok (.error e) := by
      cases e <;> first | rfl | cases hc
    simp only [hc'] at hfin'
    refine ⟨by simp only [Live.step, hfin'], fun _ => ⟨(gone e rfl).1, (gone e rfl).2.trans ?_, D, rfl, hD⟩⟩
    simp only [Live.step, hfin', hval]
    rfl
  · simp only [mut_bind, Mut.bind, hc, lift] at hgen
    have e1 : step (onBook cd) env cd sch (.keygen input keyID mpkID mskID r : Live.Call q G1 G2) ((v, L), w) = _ := ret_run hgen
    rw [e1]
    have hfin' : Live.generateKey env sch (asValues (vals v) w).ctx input keyID mpkID mskID r = _ := hfin
    have hc' : caught (mapRes (fun _ => vals v' v.length) (Res.throw e : Res Unit)) = .throw e := by
      cases e <;> first | rfl | cases hc
    simp only [hc'] at hfin'
    refine ⟨by simp only [Live.step, hfin'], fun _ => ⟨(gone e rfl).1, (gone e rfl).2.trans ?_, D, rfl, hD⟩⟩
    simp only [Live.step, hfin', hval]
    rfl
  · simp only [mut_bind, Mut.bind, hc, lift] at hgen
    have e1 : step (onBook cd) env cd sch (.keygen input keyID mpkID mskID r : Live.Call q G1 G2) ((v, L), w) = _ := ret_run hgen
    rw [e1]
    have hfin' : Live.generateKey env sch (asValues (vals v) w).ctx input keyID mpkID mskID r = _ := hfin
    simp only [mapRes, caught] at hfin'
    exact ⟨by simp only [Live.step, hfin'], fun h => h.elim⟩
  · simp only [mut_bind, Mut.bind, hc, lift] at hgen
    have e1 : step (onBook cd) env cd sch (.keygen input keyID mpkID mskID r : Live.Call q G1 G2) ((v, L), w) = _ := ret_run hgen
    rw [e1]
    have hfin' : Live.generateKey env sch (asValues (vals v) w).ctx input keyID mpkID mskID r = _ := hfin
    simp only [mapRes, caught] at hfin'
    exact ⟨by simp only [Live.step, hfin'], fun h => h.elim⟩

end Calls
end Cm
end Abe
