import Verif.Proof.ContextMemoryOps
/-! Setup, key generation, encryption and decryption. -/
set_option linter.unusedSimpArgs false
set_option linter.unusedSectionVars false
set_option autoImplicit false
namespace Abe
namespace Cm
open Live (Mut lift asZP asG1 asG2 asGT asBytes Two mapRes)
open Scheme
open Mem (Store Cell Heap Ptrs SimR Agree WRel Values at_ Ghost stored under overwritten putAll)
variable {G1 G2 GT : Type}

section Calls
variable {n : Nat} {v : Values G1 G2 GT} {w : Held G1 G2 GT} {L : List (Cell G1 G2 GT)}
variable {q : Nat} [Fact q.Prime]
variable [AddCommGroup G1] [Module (ZMod q) G1] [AddCommGroup G2] [Module (ZMod q) G2] [AddCommGroup GT]
  [Module (ZMod q) GT]

theorem fine_params (env : Env G1 G2 GT) (cd : Codec G1 G2 GT) (sch : Scheme) (h : Inv n [] v w) (mpkID mskID : Bytes) (r : ParamRand q G1 G2) :
    Fine n L (· = []) (Live.step env cd sch (asValues (vals v) w) (.params mpkID mskID r : Live.Call q G1 G2))
      (step (onBook cd) env cd sch (.params mpkID mskID r : Live.Call q G1 G2) ((v, L), w)) := by
  have h0 : Inv n [] v { w with ready := true } := ⟨h.nodup, h.here, h.top, h.order⟩
  have h1 : Inv n [] v { w with ready := true, ks := (w.ks.validateNewParamsID mpkID).2 } :=
    h0.store (owners_validate h.order mpkID) (h.order.validate mpkID)
  have h2 : Inv n [] v { w with ready := true, ks := ((w.ks.validateNewParamsID mpkID).2.validateNewParamsID mskID).2 } :=
    h1.store (owners_validate h1.order mskID) (h1.order.validate mskID)
  have m1 := validate_map (keyOf (vals v)) w.ks mpkID
  have m2 := validate_map (keyOf (vals v)) (w.ks.validateNewParamsID mpkID).2 mskID
  have hg : ∀ pm : Res (Container G1 G2 GT × Container G1 G2 GT), (match sch with | .cp => Scheme.cpParams env r | .kp => Scheme.kpParams env r) = pm →
      Scheme.generateParams env sch (asValues (vals v) w).ctx mpkID mskID r =
      if (w.ks.validateNewParamsID mpkID).1 = false then .ok (some .invalidParamsId,
        (asValues (vals v) { w with ready := true, ks := (w.ks.validateNewParamsID mpkID).2 }).ctx)
      else if ((w.ks.validateNewParamsID mpkID).2.validateNewParamsID mskID).1 = false then .ok (some .invalidParamsId,
        (asValues (vals v) { w with ready := true, ks := ((w.ks.validateNewParamsID mpkID).2.validateNewParamsID mskID).2 }).ctx)
      else pm >>= fun pm => .ok (none, { alg := w.alg, ready := true, ks := ((mapKeys (keyOf (vals v)) ((w.ks.validateNewParamsID mpkID).2.validateNewParamsID mskID).2).addKey
        mpkID (newKey w.alg mpkID r.uid1 pm.1) .pub).addKey mskID (newKey w.alg mskID r.uid2 pm.2) .sec }) := by
    intro pm hpm
    subst hpm
    unfold Scheme.generateParams
    have e0 : (asValues (vals v) w).ctx.ks = mapKeys (keyOf (vals v)) w.ks := rfl
    simp only [e0, m1, m2]
    cases sch <;> rfl
  by_cases c1 : (w.ks.validateNewParamsID mpkID).1 = false
  · have e2 : generateParams (onBook cd) env sch mpkID mskID r ((v, L), w) =
        (.ok (some .invalidParamsId), (v, L), { w with ready := true, ks := (w.ks.validateNewParamsID mpkID).2 }) := by
      unfold generateParams
      simp only [mut_bind, Mut.bind, makePairing, validateNewParamsID, look, if_pos c1, lift]
    have e1 : step (onBook cd) env cd sch (.params mpkID mskID r : Live.Call q G1 G2) ((v, L), w) = _ := ret_run e2
    rw [e1]
    have e3 := hg _ rfl
    rw [if_pos c1] at e3
    exact ⟨by simp only [Live.step, e3]; rfl, fun _ => ⟨h1, by simp only [Live.step, e3]; rfl, [], by simp, rfl⟩⟩
  by_cases c2 : ((w.ks.validateNewParamsID mpkID).2.validateNewParamsID mskID).1 = false
  · have e2 : generateParams (onBook cd) env sch mpkID mskID r ((v, L), w) =
        (.ok (some .invalidParamsId), (v, L), { w with ready := true, ks := ((w.ks.validateNewParamsID mpkID).2.validateNewParamsID mskID).2 }) := by
      unfold generateParams
      simp only [mut_bind, Mut.bind, makePairing, validateNewParamsID, look, if_neg c1, if_pos c2, lift]
    have e1 : step (onBook cd) env cd sch (.params mpkID mskID r : Live.Call q G1 G2) ((v, L), w) = _ := ret_run e2
    rw [e1]
    have e3 := hg _ rfl
    rw [if_neg c1, if_pos c2] at e3
    exact ⟨by simp only [Live.step, e3]; rfl, fun _ => ⟨h2, by simp only [Live.step, e3]; rfl, [], by simp, rfl⟩⟩
  obtain ⟨p, m, hp, hd⟩ := params_run env sch r L
  have h3 := h2.new.new
  have hlen : (v ++ [some []]).length = v.length + 1 := by simp
  have hij : v.length ≠ v.length + 1 := by omega
  rw [hlen] at h3
  have a1 : at_ (v ++ [some []] ++ [some []]) v.length = some [] := by
    rw [at_append, if_neg (by rw [hlen]; exact hij), at_new]
  have a2 : at_ (v ++ [some []] ++ [some []]) (v.length + 1) = some [] := by
    rw [at_append, if_pos hlen.symm]
  have hr : OnP (v ++ [some []] ++ [some []]) v.length (v.length + 1) (v ++ [some []] ++ [some []], L) (([], []), L) :=
    ⟨a1, a2, fun _ _ _ => rfl, rfl⟩
  have hsim : ∃ b : Values G1 G2 GT, (match sch with
        | .cp => cpParams ((onBook cd).store v.length) ((onBook cd).store (v.length + 1)) env r
        | .kp => kpParams ((onBook cd).store v.length) ((onBook cd).store (v.length + 1)) env r) (v ++ [some []] ++ [some []], L) = (.ok (), b, L) ∧
      OnP (v ++ [some []] ++ [some []]) v.length (v.length + 1) (b, L) ((p, m), L) := by
    cases sch with
    | cp =>
      obtain ⟨x1, x2⟩ := sim_cpParams (onP_fill1 cd hij) (onP_fill2 cd hij) env r _ _ hr
      simp only at hd
      rw [hd] at x1 x2
      refine ⟨_, Prod.ext x1 (Prod.ext rfl x2.lost), ?_⟩
      have := x2.lost
      exact ⟨x2.one, x2.two, x2.rest, rfl⟩
    | kp =>
      obtain ⟨x1, x2⟩ := sim_kpParams (onP_fill1 cd hij) (onP_fill2 cd hij) env r _ _ hr
      simp only at hd
      rw [hd] at x1 x2
      refine ⟨_, Prod.ext x1 (Prod.ext rfl x2.lost), ?_⟩
      exact ⟨x2.one, x2.two, x2.rest, rfl⟩
  obtain ⟨b, hb, hob⟩ := hsim
  have ho : ∀ x, x ∉ [v.length, v.length + 1] → at_ b x = at_ (v ++ [some []] ++ [some []]) x := by
    intro x hx
    simp only [List.mem_cons, List.not_mem_nil, or_false, not_or] at hx
    exact hob.rest x hx.1 hx.2
  have h4 := h3.same (v1 := b) [v.length, v.length + 1] (by
    intro k hk
    simp only [List.mem_cons, List.not_mem_nil, or_false] at hk
    rcases hk with rfl | rfl
    · exact ⟨by simp, by rw [hob.one]; rfl⟩
    · exact ⟨by simp, by rw [hob.two]; rfl⟩) ho
  have hv : asValues (vals b) { w with ready := true, ks := ((w.ks.validateNewParamsID mpkID).2.validateNewParamsID mskID).2 } =
      asValues (vals v) { w with ready := true, ks := ((w.ks.validateNewParamsID mpkID).2.validateNewParamsID mskID).2 } := by
    refine (h3.view (K := [v.length, v.length + 1]) (by simp) ho).trans ?_
    refine asValues_congr h3.top fun i hi => vals_eq ?_
    have := at_lt (h2.some (i := i) hi)
    rw [at_append, if_neg (by rw [hlen]; omega), at_append, if_neg (by omega)]
  have h5 : Inv n (v.length :: [v.length + 1]) b { w with ready := true, ks := ((w.ks.validateNewParamsID mpkID).2.validateNewParamsID mskID).2 } :=
    h4.perm ((List.Perm.swap _ _ _).append_right _) h4.top h4.order
  obtain ⟨v2, e5, i5, k5⟩ := addKey_run cd (id := mpkID) (k := ⟨newKey w.alg mpkID r.uid1 [], v.length⟩) .pub h5 L
  obtain ⟨v3, e6, i6, k6⟩ := addKey_run cd (id := mskID) (k := ⟨newKey w.alg mskID r.uid2 [], v.length + 1⟩) .sec i5 L
  have hval1 := addKey_val i5 k5
  have hval2 := addKey_val i6 k6
  have e2 : generateParams (onBook cd) env sch mpkID mskID r ((v, L), w) = (.ok none, (v3, L), { w with ready := true, ks :=
      (((w.ks.validateNewParamsID mpkID).2.validateNewParamsID mskID).2.addKey mpkID ⟨newKey w.alg mpkID r.uid1 [], v.length⟩ .pub).addKey mskID ⟨newKey w.alg mskID r.uid2 [], v.length + 1⟩ .sec }) := by
    unfold generateParams
    simp only [mut_bind, Mut.bind, makePairing, validateNewParamsID, look, if_neg c1, if_neg c2, ctx, mem]
    have en : (onBook cd).new (v, L) = (.ok v.length, v ++ [some []], L) := rfl
    have en2 : (onBook cd).new (v ++ [some []], L) = (.ok (v.length + 1), v ++ [some []] ++ [some []], L) := by
      rw [← hlen]; rfl
    simp only [en, en2]
    cases sch with
    | cp => simp only at hb ⊢; simp only [hb, e5, e6]; rfl
    | kp => simp only at hb ⊢; simp only [hb, e5, e6]; rfl
  have e1 : step (onBook cd) env cd sch (.params mpkID mskID r : Live.Call q G1 G2) ((v, L), w) = _ := ret_run e2
  rw [e1]
  have e3 := hg _ hp
  rw [if_neg c1, if_neg c2, Res.ok_bind] at e3
  have v1 : keyOf (vals b) ⟨newKey w.alg mpkID r.uid1 [], v.length⟩ = newKey w.alg mpkID r.uid1 p := by
    show { newKey w.alg mpkID r.uid1 ([] : Container G1 G2 GT) with comps := vals b v.length } = _
    rw [vals_of hob.one]; rfl
  have v2' : keyOf (vals v2) ⟨newKey w.alg mskID r.uid2 [], v.length + 1⟩ = newKey w.alg mskID r.uid2 m := by
    show { newKey w.alg mskID r.uid2 ([] : Container G1 G2 GT) with comps := vals v2 (v.length + 1) } = _
    rw [vals_eq (k5 _ (by simp)), vals_of hob.two]; rfl
  refine ⟨by simp only [Live.step, e3]; rfl, fun _ => ⟨i6, ?_, [], by simp, rfl⟩⟩
  refine hval2.trans ?_
  rw [hval1, hv, v1, v2']
  simp only [Live.step, e3]
  rfl

end Calls
end Cm
end Abe
