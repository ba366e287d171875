import Verif.Proof.ContextMemoryCalls
/-! The calls that make keys and ciphertexts. -/
set_option linter.unusedSimpArgs false
set_option linter.unusedSectionVars false
set_option autoImplicit false
namespace Abe
namespace Cm
open Live (Mut lift asZP asG1 asG2 asGT asBytes Two mapRes)
open Scheme
open Mem (Store Cell Heap Ptrs SimR Agree WRel Values at_ Ghost stored under overwritten putAll)
variable {G1 G2 GT : Type}

section
variable {n : Nat} {l : List Nat} {v v' v1 : Values G1 G2 GT} {w : Held G1 G2 GT} {L : List (Cell G1 G2 GT)}

/-- Some containers have other components. -/
theorem Inv.same (h : Inv n l v w) (K : List Nat) (hk : ∀ k ∈ K, k ∈ l ++ held n w ∧ (at_ v1 k).isSome)
    (hr : ∀ x, x ∉ K → at_ v1 x = at_ v x) : Inv n l v1 w :=
  h.change fun i => by
    by_cases hi : i ∈ K
    · rw [(hk i hi).2, (h.here i).mpr (hk i hi).1]
    · rw [hr i hi]

/-- Only local containers have other components. -/
theorem Inv.view (h : Inv n l v w) {K : List Nat} (hk : ∀ k ∈ K, k ∈ l) (hr : ∀ x, x ∉ K → at_ v1 x = at_ v x) :
    asValues (vals v1) w = asValues (vals v) w :=
  asValues_congr h.top fun i hi => vals_eq (hr i fun hm => (List.nodup_append.mp h.nodup).2.2 i (hk i hm) i hi rfl)

/-- The last local container is destroyed. -/
theorem Inv.view_gone {k : Nat} (h : Inv n (k :: l) v w) : asValues (vals (v.set k none)) w = asValues (vals v) w :=
  h.view (K := [k]) (by simp) fun x hx => by rw [at_set, if_neg (fun e => hx (by simp [e.1]))]

/-- A new container. -/
theorem Inv.view_new (h : Inv n [] v w) : asValues (vals (v ++ [Option.some []])) w = asValues (vals v) w :=
  asValues_congr h.top fun i hi => vals_eq (by
    have := at_lt (h.some hi)
    rw [at_append, if_neg (by omega)])

theorem at_new (v : Values G1 G2 GT) : at_ (v ++ [some []]) v.length = some [] := by rw [at_append, if_pos rfl]

theorem Inv.cleared {α : Type} {k : Nat} (h : Inv n [k] v w) {r : Res α} {e : Err} (he : r = .throw e) :
    Inv n [] (cleared r v k) w ∧ asValues (vals (cleared r v k)) w = asValues (vals v) w := by
  subst he
  exact ⟨h.gone, h.view_gone⟩

/-- A new key. -/
theorem addKey_val {id : Bytes} {k : HKey G1 G2 GT} {kind : KeyKind} (h1 : Inv n l v' { w with ks := w.ks.addKey id k kind })
    (h2 : ∀ i ∈ l ++ held n { w with ks := w.ks.addKey id k kind }, at_ v' i = at_ v i) :
    asValues (vals v') { w with ks := w.ks.addKey id k kind } =
      { (asValues (vals v) w) with
        ctx := { (asValues (vals v) w).ctx with ks := (asValues (vals v) w).ctx.ks.addKey id (keyOf (vals v) k) kind } } := by
  rw [asValues_congr h1.top fun i hi => vals_eq (h2 i (List.mem_append_right _ hi)), asValues_eq, asValues_eq]
  simp only [add_map]

end

section Calls
variable {n : Nat} {v : Values G1 G2 GT} {w : Held G1 G2 GT} {L : List (Cell G1 G2 GT)}
variable {q : Nat} [Fact q.Prime]
variable [AddCommGroup G1] [Module (ZMod q) G1] [AddCommGroup G2] [Module (ZMod q) G2] [AddCommGroup GT]
  [Module (ZMod q) GT]

theorem fine_exportCt (env : Env G1 G2 GT) (cd : Codec G1 G2 GT) (sch : Scheme) (h : Inv n [] v w) {j : Nat} (hj : j < n) :
    Fine n L (fun D => D.length = left env cd sch (asValues (vals v) w) (.exportCt j : Live.Call q G1 G2))
      (Live.step env cd sch (asValues (vals v) w) (.exportCt j : Live.Call q G1 G2))
      (step (onBook cd) env cd sch (.exportCt j : Live.Call q G1 G2) ((v, L), w)) := by
  obtain ⟨v', cts', x, i, e, h1, h2, h3⟩ := slot_run cd hj h L
  have hmem : i ∈ held n { w with cts := cts' } := List.mem_append_right _ (mem_ctConts.mpr ⟨j, hj, x, h3⟩)
  have hat := h1.some (i := i) hmem
  have hct : (asValues (vals v) w).cts j = { x with comps := vals v' i } := by
    rw [← h2]
    simp only [asValues_eq, ctsOf, h3]
  have e2 : exportCt (onBook cd) j ((v, L), w) = (((asValues (vals v) w).cts j).exportBytes cd,
      (v', L ++ Mem.buffers cd (vals v' i)), { w with cts := cts' }) := by
    unfold exportCt
    have hw := write_run cd hat L
    rw [hct]
    simp only [mut_bind, Mut.bind, e, mem, hw, Ciphertext.exportBytes]
    cases Container.serialize cd (vals v' i) <;> rfl
  have e1 : step (onBook cd) env cd sch (.exportCt j : Live.Call q G1 G2) ((v, L), w) = _ := ret_run e2
  rw [e1]
  refine ⟨rfl, fun _ => ⟨h1, h2, _, rfl, ?_⟩⟩
  simp only [left, hct]

theorem fine_loadCt (env : Env G1 G2 GT) (cd : Codec G1 G2 GT) (sch : Scheme) (h : Inv n [] v w) {j : Nat} (hj : j < n) (blob : Bytes) :
    Fine n L (fun D => D.length = left env cd sch (asValues (vals v) w) (.loadCt j blob : Live.Call q G1 G2))
      (Live.step env cd sch (asValues (vals v) w) (.loadCt j blob : Live.Call q G1 G2))
      (step (onBook cd) env cd sch (.loadCt j blob : Live.Call q G1 G2) ((v, L), w)) := by
  have hl := load_header env.mktime cd blob
  cases hh : (ctHeader blob : Res (Ciphertext G1 G2 GT × Bytes)) with
  | throw e =>
    have e2 : loadCt (onBook cd) env.mktime cd j blob ((v, L), w) = (.throw e, (v, L), w) := by
      unfold loadCt; simp only [mut_bind, Mut.bind, lift, hh]
    have e1 : step (onBook cd) env cd sch (.loadCt j blob : Live.Call q G1 G2) ((v, L), w) = _ := ret_run e2
    rw [e1]
    rw [hh] at hl
    refine ⟨?_, fun _ => ⟨h, ?_, [], by simp, ?_⟩⟩
    · simp only [Live.step, hl]; rfl
    · simp only [Live.step, hl]; rfl
    · simp only [left, hh]; rfl
  | ub =>
    have e2 : loadCt (onBook cd) env.mktime cd j blob ((v, L), w) = (.ub, (v, L), w) := by
      unfold loadCt; simp only [mut_bind, Mut.bind, lift, hh]
    have e1 : step (onBook cd) env cd sch (.loadCt j blob : Live.Call q G1 G2) ((v, L), w) = _ := ret_run e2
    rw [e1]
    rw [hh] at hl
    exact ⟨by simp only [Live.step, hl]; rfl, fun h => h.elim⟩
  | abort =>
    have e2 : loadCt (onBook cd) env.mktime cd j blob ((v, L), w) = (.abort, (v, L), w) := by
      unfold loadCt; simp only [mut_bind, Mut.bind, lift, hh]
    have e1 : step (onBook cd) env cd sch (.loadCt j blob : Live.Call q G1 G2) ((v, L), w) = _ := ret_run e2
    rw [e1]
    rw [hh] at hl
    exact ⟨by simp only [Live.step, hl]; rfl, fun h => h.elim⟩
  | ok hb =>
    obtain ⟨v1, r, hm, hr, hs, ho⟩ := load_run env.mktime cd (at_new v) hb.2 L
    have hi : Inv n [v.length] v1 w := h.new.same [v.length] (by simp [hs]) (by simpa using ho)
    have hv : asValues (vals v1) w = asValues (vals v) w := (h.new.view (K := [v.length]) (by simp) (by simpa using ho)).trans h.view_new
    have hor := orElse_run cd hm hs
    rw [hh, Res.ok_bind, ← hr] at hl
    have hleft : left env cd sch (asValues (vals v) w) (.loadCt j blob : Live.Call q G1 G2) =
        (overwritten [] (Mem.entries env.mktime cd hb.2 (hb.2.length + 1) 0)).length := by simp only [left, hh]
    cases r with
    | ok a =>
      obtain ⟨v2, e3, h3, h4⟩ := putSlot_run cd hj hi hb.1 (L ++ overwritten [] (Mem.entries env.mktime cd hb.2 (hb.2.length + 1) 0))
      have e2 : loadCt (onBook cd) env.mktime cd j blob ((v, L), w) = (.ok (), (v2, L ++ overwritten [] (Mem.entries env.mktime cd hb.2 (hb.2.length + 1) 0)),
          { w with cts := put w.cts j (hb.1, v.length) }) := by
        unfold loadCt
        simp only [mut_bind, Mut.bind, lift, hh, mem]
        have en : (onBook cd).new (v, L) = (.ok v.length, v ++ [some []], L) := rfl
        simp only [en, hor, cleared]
        exact e3
      have e1 : step (onBook cd) env cd sch (.loadCt j blob : Live.Call q G1 G2) ((v, L), w) = _ := ret_run e2
      rw [e1]
      refine ⟨?_, fun _ => ⟨h3, ?_, _, rfl, hleft.symm⟩⟩
      · simp only [Live.step, hl]; rfl
      · rw [h4, hv]; simp only [Live.step, hl]; rfl
    | throw e =>
      have e2 : loadCt (onBook cd) env.mktime cd j blob ((v, L), w) = (.throw e, (v1.set v.length none, L ++ overwritten [] (Mem.entries env.mktime cd hb.2 (hb.2.length + 1) 0)), w) := by
        unfold loadCt
        simp only [mut_bind, Mut.bind, lift, hh, mem]
        have en : (onBook cd).new (v, L) = (.ok v.length, v ++ [some []], L) := rfl
        simp only [en, hor, cleared]
      have e1 : step (onBook cd) env cd sch (.loadCt j blob : Live.Call q G1 G2) ((v, L), w) = _ := ret_run e2
      rw [e1]
      refine ⟨?_, fun _ => ⟨hi.gone, ?_, _, rfl, hleft.symm⟩⟩
      · simp only [Live.step, hl]; rfl
      · refine hi.view_gone.trans (hv.trans ?_)
        simp only [Live.step, hl]; rfl
    | ub =>
      have e2 : loadCt (onBook cd) env.mktime cd j blob ((v, L), w) = (.ub, (v1, L ++ overwritten [] (Mem.entries env.mktime cd hb.2 (hb.2.length + 1) 0)), w) := by
        unfold loadCt
        simp only [mut_bind, Mut.bind, lift, hh, mem]
        have en : (onBook cd).new (v, L) = (.ok v.length, v ++ [some []], L) := rfl
        simp only [en, hor, cleared]
      have e1 : step (onBook cd) env cd sch (.loadCt j blob : Live.Call q G1 G2) ((v, L), w) = _ := ret_run e2
      rw [e1]
      exact ⟨by simp only [Live.step, hl]; rfl, fun h => h.elim⟩
    | abort =>
      have e2 : loadCt (onBook cd) env.mktime cd j blob ((v, L), w) = (.abort, (v1, L ++ overwritten [] (Mem.entries env.mktime cd hb.2 (hb.2.length + 1) 0)), w) := by
        unfold loadCt
        simp only [mut_bind, Mut.bind, lift, hh, mem]
        have en : (onBook cd).new (v, L) = (.ok v.length, v ++ [some []], L) := rfl
        simp only [en, hor, cleared]
      have e1 : step (onBook cd) env cd sch (.loadCt j blob : Live.Call q G1 G2) ((v, L), w) = _ := ret_run e2
      rw [e1]
      exact ⟨by simp only [Live.step, hl]; rfl, fun h => h.elim⟩

theorem fine_loadKey (env : Env G1 G2 GT) (cd : Codec G1 G2 GT) (sch : Scheme) (h : Inv n [] v w) (id blob rnd : Bytes) (kind : KeyKind) :
    Fine n L (fun D => D.length = left env cd sch (asValues (vals v) w) (.loadKey id blob rnd kind : Live.Call q G1 G2))
      (Live.step env cd sch (asValues (vals v) w) (.loadKey id blob rnd kind : Live.Call q G1 G2))
      (step (onBook cd) env cd sch (.loadKey id blob rnd kind : Live.Call q G1 G2) ((v, L), w)) := by
  have hready : Inv n [] v { w with ready := true } := ⟨h.nodup, h.here, h.top, h.order⟩
  cases hh : (Key.parseHeader blob rnd : Res (Key G1 G2 GT × Bytes)) with
  | throw e =>
    have e2 : loadKey (onBook cd) env.mktime cd id blob rnd kind ((v, L), w) = (.throw e, (v, L), w) := by
      unfold loadKey; simp only [mut_bind, Mut.bind, lift, hh]
    have e1 : step (onBook cd) env cd sch (.loadKey id blob rnd kind : Live.Call q G1 G2) ((v, L), w) = _ := ret_run e2
    rw [e1]
    refine ⟨?_, fun _ => ⟨h, ?_, [], by simp, ?_⟩⟩
    · simp only [Live.step, Live.loadKey, hh]
    · simp only [Live.step, Live.loadKey, hh]
    · simp only [left, hh]; rfl
  | ub =>
    have e2 : loadKey (onBook cd) env.mktime cd id blob rnd kind ((v, L), w) = (.ub, (v, L), w) := by
      unfold loadKey; simp only [mut_bind, Mut.bind, lift, hh]
    have e1 : step (onBook cd) env cd sch (.loadKey id blob rnd kind : Live.Call q G1 G2) ((v, L), w) = _ := ret_run e2
    rw [e1]
    exact ⟨by simp only [Live.step, Live.loadKey, hh], fun h => h.elim⟩
  | abort =>
    have e2 : loadKey (onBook cd) env.mktime cd id blob rnd kind ((v, L), w) = (.abort, (v, L), w) := by
      unfold loadKey; simp only [mut_bind, Mut.bind, lift, hh]
    have e1 : step (onBook cd) env cd sch (.loadKey id blob rnd kind : Live.Call q G1 G2) ((v, L), w) = _ := ret_run e2
    rw [e1]
    exact ⟨by simp only [Live.step, Live.loadKey, hh], fun h => h.elim⟩
  | ok hb =>
    obtain ⟨k0, body⟩ := hb
    have hc := parse_comps hh
    by_cases ha : k0.alg ≠ w.alg
    · have e2 : loadKey (onBook cd) env.mktime cd id blob rnd kind ((v, L), w) =
          (.ok (some .invalidKeyHeader), (v, L), { w with ready := true }) := by
        unfold loadKey
        simp only [mut_bind, Mut.bind, lift, hh, makePairing, look, ctx, if_pos ha]
      have e1 : step (onBook cd) env cd sch (.loadKey id blob rnd kind : Live.Call q G1 G2) ((v, L), w) = _ := ret_run e2
      rw [e1]
      have ha' : k0.alg ≠ (asValues (vals v) w).ctx.alg := ha
      refine ⟨?_, fun _ => ⟨hready, ?_, [], by simp, ?_⟩⟩
      · simp only [Live.step, Live.loadKey, hh, if_pos ha']
      · simp only [Live.step, Live.loadKey, hh, if_pos ha']; rfl
      · simp only [left, hh, if_pos ha']; rfl
    · obtain ⟨v1, r, hm, hr, hs, ho⟩ := load_run env.mktime cd (at_new v) body L
      have hi : Inv n [v.length] v1 { w with ready := true } := hready.new.same [v.length] (by simp [hs]) (by simpa using ho)
      have hv : asValues (vals v1) { w with ready := true } = asValues (vals v) { w with ready := true } :=
        (hready.new.view (K := [v.length]) (by simp) (by simpa using ho)).trans hready.view_new
      have hor := orElse_run cd hm hs
      have ha' : ¬k0.alg ≠ (asValues (vals v) w).ctx.alg := ha
      have hleft : left env cd sch (asValues (vals v) w) (.loadKey id blob rnd kind : Live.Call q G1 G2) =
          (overwritten [] (Mem.entries env.mktime cd body (body.length + 1) 0)).length := by simp only [left, hh, if_neg ha']
      have en : (onBook cd).new (v, L) = (.ok v.length, v ++ [some []], L) := rfl
      have hlb : Key.loadBody env.mktime cd k0 body = mapRes (fun _ => { k0 with comps := vals v1 v.length }) r := by
        unfold Key.loadBody
        rw [hc, ← hr]
        cases r <;> rfl
      cases r with
      | ok a =>
        obtain ⟨v2, e3, h3, h4⟩ := addKey_run cd (id := id) (k := ⟨k0, v.length⟩) kind hi
          (L ++ overwritten [] (Mem.entries env.mktime cd body (body.length + 1) 0))
        have e2 : loadKey (onBook cd) env.mktime cd id blob rnd kind ((v, L), w) = (.ok none, (v2, L ++ overwritten [] (Mem.entries env.mktime cd body (body.length + 1) 0)),
            { w with ready := true, ks := w.ks.addKey id ⟨k0, v.length⟩ kind }) := by
          unfold loadKey
          simp only [mut_bind, Mut.bind, lift, hh, makePairing, look, ctx, if_neg ha, mem, en, hor, cleared]
          rw [e3]
        have e1 : step (onBook cd) env cd sch (.loadKey id blob rnd kind : Live.Call q G1 G2) ((v, L), w) = _ := ret_run e2
        rw [e1]
        have hval := addKey_val h3 h4
        refine ⟨?_, fun _ => ⟨h3, ?_, _, rfl, hleft.symm⟩⟩
        · simp only [Live.step, Live.loadKey, hh, if_neg ha', hlb]; rfl
        · refine hval.trans ?_
          rw [hv]
          simp only [Live.step, Live.loadKey, hh, if_neg ha', hlb]; rfl
      | throw e =>
        have e2 : loadKey (onBook cd) env.mktime cd id blob rnd kind ((v, L), w) = (.throw e, (v1.set v.length none, L ++ overwritten [] (Mem.entries env.mktime cd body (body.length + 1) 0)),
            { w with ready := true }) := by
          unfold loadKey
          simp only [mut_bind, Mut.bind, lift, hh, makePairing, look, ctx, if_neg ha, mem, en, hor, cleared]
        have e1 : step (onBook cd) env cd sch (.loadKey id blob rnd kind : Live.Call q G1 G2) ((v, L), w) = _ := ret_run e2
        rw [e1]
        refine ⟨?_, fun _ => ⟨hi.gone, ?_, _, rfl, hleft.symm⟩⟩
        · simp only [Live.step, Live.loadKey, hh, if_neg ha', hlb]; rfl
        · refine hi.view_gone.trans (hv.trans ?_)
          simp only [Live.step, Live.loadKey, hh, if_neg ha', hlb]; rfl
      | ub =>
        have e2 : loadKey (onBook cd) env.mktime cd id blob rnd kind ((v, L), w) = (.ub, (v1, L ++ overwritten [] (Mem.entries env.mktime cd body (body.length + 1) 0)),
            { w with ready := true }) := by
          unfold loadKey
          simp only [mut_bind, Mut.bind, lift, hh, makePairing, look, ctx, if_neg ha, mem, en, hor, cleared]
        have e1 : step (onBook cd) env cd sch (.loadKey id blob rnd kind : Live.Call q G1 G2) ((v, L), w) = _ := ret_run e2
        rw [e1]
        exact ⟨by simp only [Live.step, Live.loadKey, hh, if_neg ha', hlb]; rfl, fun h => h.elim⟩
      | abort =>
        have e2 : loadKey (onBook cd) env.mktime cd id blob rnd kind ((v, L), w) = (.abort, (v1, L ++ overwritten [] (Mem.entries env.mktime cd body (body.length + 1) 0)),
            { w with ready := true }) := by
          unfold loadKey
          simp only [mut_bind, Mut.bind, lift, hh, makePairing, look, ctx, if_neg ha, mem, en, hor, cleared]
        have e1 : step (onBook cd) env cd sch (.loadKey id blob rnd kind : Live.Call q G1 G2) ((v, L), w) = _ := ret_run e2
        rw [e1]
        exact ⟨by simp only [Live.step, Live.loadKey, hh, if_neg ha', hlb]; rfl, fun h => h.elim⟩

end Calls
end Cm
end Abe
