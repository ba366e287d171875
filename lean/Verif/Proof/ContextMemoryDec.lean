import Verif.Proof.ContextMemoryEnc
/-! Decryption, and all calls. -/
set_option linter.unusedSimpArgs false
set_option linter.unusedSectionVars false
set_option autoImplicit false
namespace Abe
namespace Cm
open Live (Mut lift asZP asG1 asG2 asGT asBytes Two mapRes)
open Scheme
open Mem (Store Cell Heap Ptrs SimR Agree WRel Values at_ Ghost stored under overwritten putAll)
variable {G1 G2 GT : Type}

section Calls
variable {n : Nat} {v : Values G1 G2 GT} {w : Held G1 G2 GT} {L : List (Cell G1 G2 GT)}
variable {q : Nat} [Fact q.Prime]
variable [AddCommGroup G1] [Module (ZMod q) G1] [AddCommGroup G2] [Module (ZMod q) G2] [AddCommGroup GT]
  [Module (ZMod q) GT]

theorem mapRes_self {α : Type} (r : Res α) : mapRes (fun a => a) r = r := by cases r <;> rfl

/-- What comes after `decryptKEM` leaves nothing behind. -/
theorem plain_left (env : Env G1 G2 GT) (sch : Scheme) (c : Ctx G1 G2 GT) (u : Desk G1 G2 GT) :
    (plainBody q get1 get2 fill env sch c u).2.2.2 = (decBody q get1 get2 fill env sch c u).2.2.2 := by
  unfold plainBody
  simp only [mut_bind, Mut.bind]
  rcases decBody q get1 get2 fill env sch c u with ⟨K | _ | _ | _, u'⟩
  · simp only [get2]
    rcases (Container.getComponent u'.1.2 b!"_ED").1 with o | _ | _ | _
    · simp only [lift]
      cases notNull (asBytes o) <;> rfl
    all_goals rfl
  all_goals rfl

theorem tr_plain (env : Env G1 G2 GT) (sch : Scheme) (c c' : Ctx G1 G2 GT) (hc : c'.ready = c.ready) (s : Two G1 G2 GT) (g : Ghost G1 G2 GT) :
    ∃ D, (plainBody q get1 get2 fill env sch c' (s, g)).2.2.2 = g.2 ++ D ∧ D.length = oneIfOk (decapsulate q env sch c s).1 := by
  obtain ⟨S, B, h1, h2, _, _, h5⟩ := tr_decBody (q := q) env sch c' (s, g)
  have hS : S = [] := by
    have := List.prefix_nil.mp h1
    simpa using this
  subst hS
  refine ⟨B, ?_, ?_⟩
  · rw [plain_left, h5]; simp [overwritten]
  · rw [(eqv_decBody (q := q) (s := s) env sch c c' hc g).1, h2]
    cases (decBody q get1 get2 fill env sch c' (s, g)).1 <;> rfl

/-- The body of decryption. -/
theorem plain_run (env : Env G1 G2 GT) (cd : Codec G1 G2 GT) (sch : Scheme) (c c' : Ctx G1 G2 GT) (hc : c'.ready = c.ready) {i j : Nat}
    {a b : Container G1 G2 GT} (hi : at_ v i = some a) (hj : at_ v j = some b) (hij : i ≠ j) :
    ∃ z v' D, plainBody q ((onBook cd).get i) ((onBook cd).get j) ((onBook cd).store j) env sch c' (v, L) = (z, v', L ++ D) ∧
      D.length = oneIfOk (decapsulate q env sch c (a, b)).1 ∧
      Live.plainBody q env sch c (a, b) = (z, (vals v' i, vals v' j)) ∧
      (∀ x ∈ [i, j], (at_ v' x).isSome) ∧ ∀ x, x ∉ [i, j] → at_ v' x = at_ v x := by
  have hr : OnD v i j (v, L) ((a, b), ([], L)) := ⟨hi, hj, fun _ _ _ => rfl, rfl⟩
  obtain ⟨e1, e2⟩ := sim_plainBody (q := q) (onD_get1 cd hij) (onD_get2 cd hij) (onD_buf cd j) env sch c' _ _ hr
  obtain ⟨q1, q2⟩ := eqv_plainBody (q := q) (s := (a, b)) env sch c c' hc ([], L)
  obtain ⟨D, d1, d2⟩ := tr_plain (q := q) env sch c c' hc (a, b) ([], L)
  refine ⟨_, _, D, Prod.ext e1 (Prod.ext rfl (e2.lost.trans d1)), d2, ?_, ?_, ?_⟩
  · refine Prod.ext (q1.trans ?_) (q2.trans (Prod.ext (vals_of e2.one).symm (vals_of e2.two).symm))
    exact mapRes_self _
  · intro x hx
    simp only [List.mem_cons, List.not_mem_nil, or_false] at hx
    rcases hx with rfl | rfl
    · rw [e2.one]; rfl
    · rw [e2.two]; rfl
  · intro x hx
    simp only [List.mem_cons, List.not_mem_nil, or_false, not_or] at hx
    exact e2.rest x hx.1 hx.2

theorem setCt_self {cts : Nat → Ciphertext G1 G2 GT} (j : Nat) : Live.setCt cts j (cts j) = cts := by
  funext i
  unfold Live.setCt
  split
  · rename_i h; rw [h]
  · rfl

/-- The components of one ciphertext have changed. -/
theorem ctsOf_set {f g : Nat → Container G1 G2 GT} {cts : Nat → Option (Ciphertext G1 G2 GT × Nat)} {j i : Nat} {x : Ciphertext G1 G2 GT}
    (ht : ∀ j, n ≤ j → cts j = none) (hn : (ctConts n cts).Nodup) (hj : cts j = some (x, i)) (h : ∀ y ∈ ctConts n cts, y ≠ i → g y = f y) :
    Live.setCt (ctsOf f cts) j { x with comps := g i } = ctsOf g cts := by
  funext m
  unfold Live.setCt ctsOf
  by_cases e : m = j
  · subst e; rw [if_pos rfl, hj]
  · rw [if_neg e]
    cases hm : cts m with
    | none => rfl
    | some y =>
      have hlt : ∀ {a : Nat} {y : Ciphertext G1 G2 GT × Nat}, cts a = some y → a < n := fun {a y} ha => by
        by_contra hna
        rw [ht a (by omega)] at ha; cases ha
      have hne : y.2 ≠ i := by
        intro ey
        have key : ∀ N, (ctConts N cts).Nodup → m < N → j < N → False := by
          intro N
          induction N with
          | zero => intro _ h; omega
          | succ N ih =>
            intro hN hm' hj'
            rw [ctConts_succ] at hN
            have hd := List.nodup_append.mp hN
            by_cases e1 : m = N
            · subst e1
              exact hd.2.2 i (mem_ctConts.mpr ⟨j, by omega, x, hj⟩) i (by rw [hm]; simp [ctOf, ey]) rfl
            · by_cases e2 : j = N
              · subst e2
                exact hd.2.2 i (mem_ctConts.mpr ⟨m, by omega, y.1, by rw [hm, ← ey]⟩) i (by rw [hj]; simp [ctOf]) rfl
              · exact ih hd.1 (by omega) (by omega)
        exact key n hn (hlt hm) (hlt hj)
      simp only [h y.2 (mem_ctConts.mpr ⟨m, hlt hm, y.1, hm⟩) hne]

theorem fine_decrypt (env : Env G1 G2 GT) (cd : Codec G1 G2 GT) (sch : Scheme) (h : Inv n [] v w) {j : Nat} (hj : j < n) (keyID : Bytes) :
    Fine n L (fun D => D.length = left env cd sch (asValues (vals v) w) (.decrypt keyID j : Live.Call q G1 G2))
      (Live.step env cd sch (asValues (vals v) w) (.decrypt keyID j : Live.Call q G1 G2))
      (step (onBook cd) env cd sch (.decrypt keyID j : Live.Call q G1 G2) ((v, L), w)) := by
  obtain ⟨v1, cts', x, i, eslot, h1, hval1, hslot⟩ := slot_run cd hj h L
  have hcts : (asValues (vals v) w).cts j = { x with comps := vals v1 i } := by
    rw [← hval1, asValues_eq]; simp only [ctsOf, hslot]
  have e0 : (asValues (vals v) w).ctx.ks = mapKeys (keyOf (vals v1)) w.ks := by rw [← hval1]; rfl
  have h2 := h1.sec keyID
  have m1 := sec_map (keyOf (vals v1)) w.ks keyID
  cases hs : (w.ks.getSecretKey keyID).1 with
  | none =>
    rw [hs] at m1
    have e2 : decrypt q (onBook cd) env sch keyID j ((v, L), w) = (.ok (some .invalidInput, []), (v1, L),
        { w with cts := cts', ks := (w.ks.getSecretKey keyID).2 }) := by
      unfold decrypt
      simp only [mut_bind, Mut.bind, eslot, ctx, look, getSecretKey, hs, lift]
    have e1 : step (onBook cd) env cd sch (.decrypt keyID j : Live.Call q G1 G2) ((v, L), w) = _ := ret_run e2
    rw [e1]
    refine ⟨?_, fun _ => ⟨h2, ?_, [], by simp, ?_⟩⟩
    · simp only [Live.step, Live.decrypt, e0, m1, Option.map_none]
    · simp only [Live.step, Live.decrypt, e0, m1, Option.map_none, setCt_self]
      rw [← hval1]; rfl
    · simp only [left, e0, m1, Option.map_none]; rfl
  | some key =>
  rw [hs] at m1
  have ps : pointer keyID (w.ks.getSecretKey keyID).2.sec = some key := sec_pointer hs
  have os : key.cont ∈ owners (w.ks.getSecretKey keyID).2 := List.mem_append_right _ (pointer_mem ps)
  have hmi : i ∈ ctConts n cts' := mem_ctConts.mpr ⟨j, hj, x, hslot⟩
  have hd := List.nodup_append.mp (List.nodup_append.mp h2.nodup).2.1
  have hne : key.cont ≠ i := hd.2.2 _ os _ hmi
  have ak := h2.some (i := key.cont) (mem_owners_held os)
  have ai := h2.some (i := i) (List.mem_append_right (owners (w.ks.getSecretKey keyID).2) hmi)
  obtain ⟨z, v2, D, hz, hD, hl, hsome, hrest⟩ := plain_run (q := q) (L := L) env cd sch (asValues (vals v) w).ctx { alg := w.alg, ready := w.ready } (by rw [← hval1]; rfl) ak ai hne
  have h3 : Inv n [] v2 { w with cts := cts', ks := (w.ks.getSecretKey keyID).2 } := by
    refine h2.same [key.cont, i] (fun x hx => ⟨?_, hsome x hx⟩) hrest
    simp only [List.mem_cons, List.not_mem_nil, or_false] at hx
    rcases hx with rfl | rfl
    · exact mem_owners_held os
    · exact List.mem_append_right (owners (w.ks.getSecretKey keyID).2) hmi
  have hks : Live.setSec (mapKeys (keyOf (vals v1)) (w.ks.getSecretKey keyID).2) keyID (vals v2 key.cont) =
      mapKeys (keyOf (vals v2)) (w.ks.getSecretKey keyID).2 :=
    setSec_map h2.order h2.owners_nodup ps (fun y hy hn => vals_eq (hrest y (by
      simp only [List.mem_cons, List.not_mem_nil, or_false, not_or]
      exact ⟨hn, fun e => hd.2.2 _ hy _ hmi e⟩)).symm)
  have hct : Live.setCt (ctsOf (vals v1) cts') j { x with comps := vals v2 i } = ctsOf (vals v2) cts' :=
    ctsOf_set h2.top hd.2.1 hslot fun y hy hn => vals_eq (hrest y (by
      simp only [List.mem_cons, List.not_mem_nil, or_false, not_or]
      exact ⟨fun e => hd.2.2 _ os _ hy e.symm, hn⟩))
  have hleft : left env cd sch (asValues (vals v) w) (.decrypt keyID j : Live.Call q G1 G2) =
      oneIfOk (decapsulate q env sch (asValues (vals v) w).ctx (vals v1 key.cont, vals v1 i)).1 := by
    simp only [left, e0, m1, Option.map_some, hcts]; rfl
  have hl' : Live.decrypt q env sch (asValues (vals v) w).ctx keyID ((asValues (vals v) w).cts j) =
      ((do match ← caught z with
          | .error e => .ok (some e, [])
          | .ok p => .ok (none, p)),
        { alg := w.alg, ready := w.ready, ks := mapKeys (keyOf (vals v2)) (w.ks.getSecretKey keyID).2 }, { x with comps := vals v2 i }) := by
    unfold Live.decrypt
    simp only [e0, m1, Option.map_some, hcts]
    have : (keyOf (vals v1) key).comps = vals v1 key.cont := rfl
    rw [this, hl, ← hks, ← hval1]
    rfl
  have e2 : decrypt q (onBook cd) env sch keyID j ((v, L), w) = ((do match ← caught z with
          | .error e => .ok (some e, [])
          | .ok p => .ok (none, p)), (v2, L ++ D), { w with cts := cts', ks := (w.ks.getSecretKey keyID).2 }) := by
    unfold decrypt
    simp only [mut_bind, Mut.bind, eslot, ctx, look, getSecretKey, hs, mem, attempt, hz]
    rcases caught z with (_ | _) | _ | _ | _ <;> rfl
  have e1 : step (onBook cd) env cd sch (.decrypt keyID j : Live.Call q G1 G2) ((v, L), w) = _ := ret_run e2
  rw [e1]
  refine ⟨?_, fun _ => ⟨h3, ?_, D, rfl, hD.trans hleft.symm⟩⟩
  · simp only [Live.step, hl']
  · simp only [Live.step, hl']
    rw [← hval1, asValues_eq, asValues_eq]
    simp only [hct]

/-- Every call. -/
theorem fine_step (env : Env G1 G2 GT) (cd : Codec G1 G2 GT) (sch : Scheme) (h : Inv n [] v w) (c : Live.Call q G1 G2) (hb : below n c) :
    Fine n L (fun D => distinct env c → D.length = left env cd sch (asValues (vals v) w) c)
      (Live.step env cd sch (asValues (vals v) w) c) (step (onBook cd) env cd sch c ((v, L), w)) := by
  have weak : ∀ {P Q : List (Cell G1 G2 GT) → Prop} {o : Res Live.Out × Live.World G1 G2 GT} {y : Res Live.Out × (Book G1 G2 GT × Held G1 G2 GT)},
      Fine n L P o y → (∀ D, P D → Q D) → Fine n L Q o y := by
    rintro P Q o y ⟨a, b⟩ hpq
    refine ⟨a, fun hd => ?_⟩
    obtain ⟨b1, b2, D, b3, b4⟩ := b hd
    exact ⟨b1, b2, D, b3, hpq D b4⟩
  cases c with
  | params mpkID mskID r => exact weak (fine_params env cd sch h mpkID mskID r) fun D hD _ => by rw [hD]; rfl
  | keygen input keyID mpkID mskID r => exact weak (fine_keygen env cd sch h input keyID mpkID mskID r) fun D hD hd => by rw [hD hd]; rfl
  | encrypt j mpkID input plaintext r => exact fine_encrypt env cd sch h hb mpkID input plaintext r
  | decrypt keyID j => exact weak (fine_decrypt env cd sch h hb keyID) fun D hD _ => hD
  | hashKey id => exact weak (fine_hash env cd sch h id) fun D hD _ => by rw [hD]; rfl
  | exportKey id => exact weak (fine_exportKey env cd sch h id) fun D hD _ => hD
  | loadKey id blob rnd kind => exact weak (fine_loadKey env cd sch h id blob rnd kind) fun D hD _ => hD
  | deleteKey id => exact weak (fine_delete env cd sch h id) fun D hD _ => by rw [hD]; rfl
  | check id => exact weak (fine_check env cd sch h id) fun D hD _ => by rw [hD]; rfl
  | exportCt j => exact weak (fine_exportCt env cd sch h hb) fun D hD _ => hD
  | loadCt j blob => exact weak (fine_loadCt env cd sch h hb blob) fun D hD _ => hD

end Calls
end Cm
end Abe
