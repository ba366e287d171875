import Verif.Proof.ContextMemoryStep
/-! Each call of a context on values with what is left behind, and the same call of Model/SchemeObjects. -/
set_option linter.unusedSimpArgs false
set_option linter.unusedSectionVars false
set_option autoImplicit false
namespace Abe
namespace Cm
open Live (Mut lift asZP asG1 asG2 asGT asBytes Two mapRes)
open Scheme
open Mem (Store Cell Heap Ptrs SimR Agree WRel Values at_ Ghost stored under overwritten putAll)
variable {G1 G2 GT : Type}

/-- The call answers as on values, and if it is defined the containers have the components of the values and `P` holds for
what it left behind. -/
def Fine (n : Nat) (L : List (Cell G1 G2 GT)) (P : List (Cell G1 G2 GT) → Prop) (out : Res Live.Out × Live.World G1 G2 GT)
    (x : Res Live.Out × (Book G1 G2 GT × Held G1 G2 GT)) : Prop :=
  x.1 = out.1 ∧ (x.1.Defined → Inv n [] x.2.1.1 x.2.2 ∧ asValues (vals x.2.1.1) x.2.2 = out.2 ∧ ∃ D, x.2.1.2 = L ++ D ∧ P D)

section
variable {n : Nat} {l : List Nat} {v : Values G1 G2 GT} {w : Held G1 G2 GT} {L : List (Cell G1 G2 GT)}

theorem ret_run {σ α : Type} {m : Prog G1 G2 GT σ α} {f : α → Live.Out} {s s' : σ × Held G1 G2 GT} {r : Res α} (h : m s = (r, s')) :
    ret m f s = (mapRes f r, s') := by
  unfold ret
  simp only [mut_bind, Mut.bind, h]
  cases r <;> rfl

theorem vals_of {i : Nat} {c : Container G1 G2 GT} (h : at_ v i = some c) : vals v i = c := by unfold vals; rw [h]; rfl

theorem vals_eq {v' : Values G1 G2 GT} {i : Nat} (h : at_ v' i = at_ v i) : vals v' i = vals v i := by unfold vals; rw [h]

theorem Inv.pub (h : Inv n l v w) (id : Bytes) : Inv n l v { w with ks := (w.ks.getPublicKey id).2 } :=
  h.store (owners_pub h.order id) (h.order.pub id)

theorem Inv.sec (h : Inv n l v w) (id : Bytes) : Inv n l v { w with ks := (w.ks.getSecretKey id).2 } :=
  h.store (owners_sec h.order id) (h.order.sec id)

theorem Inv.key (h : Inv n l v w) (id : Bytes) : Inv n l v { w with ks := (w.ks.getKey id).2 } :=
  h.store (owners_key h.order id) (h.order.key id)

theorem Inv.owners_nodup (h : Inv n l v w) : (owners w.ks).Nodup :=
  (List.nodup_append.mp (List.nodup_append.mp h.nodup).2.1).1

theorem pub_pointer {ks : KeyStore (HKey G1 G2 GT)} {id : Bytes} {k : HKey G1 G2 GT} (h : (ks.getPublicKey id).1 = some k) :
    pointer id (ks.getPublicKey id).2.pub = some k := by
  have : (KeyStore.touch ks.pub id).1 = some k := h
  rw [touch_pointer] at this
  exact (pointer_touch ks.pub id).trans this

theorem sec_pointer {ks : KeyStore (HKey G1 G2 GT)} {id : Bytes} {k : HKey G1 G2 GT} (h : (ks.getSecretKey id).1 = some k) :
    pointer id (ks.getSecretKey id).2.sec = some k := by
  have : (KeyStore.touch ks.sec id).1 = some k := h
  rw [touch_pointer] at this
  exact (pointer_touch ks.sec id).trans this

theorem key_owned {ks : KeyStore (HKey G1 G2 GT)} (ho : Ordered ks) {id : Bytes} {k : HKey G1 G2 GT} (h : (ks.getKey id).1 = some k) :
    k.cont ∈ owners ks := by
  unfold KeyStore.getKey at h
  simp only at h
  cases hp : (ks.getPublicKey id).1 with
  | some k' =>
    rw [hp] at h
    simp only [Option.some.injEq] at h
    subst h
    rw [← owners_pub ho id]
    exact List.mem_append_left _ (pointer_mem (pub_pointer hp))
  | none =>
    rw [hp] at h
    simp only at h
    rw [← owners_pub ho id, ← owners_sec (ho.pub id) id]
    exact List.mem_append_right _ (pointer_mem (sec_pointer h))

/-! ## Ciphertexts -/

/-- Another ciphertext in slot `j`. -/
def put (cts : Nat → Option (Ciphertext G1 G2 GT × Nat)) (j : Nat) (x : Ciphertext G1 G2 GT × Nat) :
    Nat → Option (Ciphertext G1 G2 GT × Nat) := fun n => if n = j then some x else cts n

/-- The container of a ciphertext. -/
def ctOf (o : Option (Ciphertext G1 G2 GT × Nat)) : List Nat := (o.map (·.2)).toList

theorem ctConts_succ (n : Nat) (cts : Nat → Option (Ciphertext G1 G2 GT × Nat)) : ctConts (n + 1) cts = ctConts n cts ++ ctOf (cts n) := by
  unfold ctConts ctOf
  rw [List.range_succ, List.filterMap_append]
  congr 1

theorem ctConts_ge {j : Nat} (cts : Nat → Option (Ciphertext G1 G2 GT × Nat)) (x : Ciphertext G1 G2 GT × Nat) :
    ∀ n, n ≤ j → ctConts n (put cts j x) = ctConts n cts
  | 0, _ => rfl
  | n + 1, h => by
    rw [ctConts_succ, ctConts_succ, ctConts_ge cts x n (by omega)]
    congr 2
    unfold put
    rw [if_neg (by omega)]

theorem ctConts_put {j : Nat} (cts : Nat → Option (Ciphertext G1 G2 GT × Nat)) (x : Ciphertext G1 G2 GT × Nat) :
    ∀ n, j < n → (ctOf (cts j) ++ ctConts n (put cts j x)).Perm (x.2 :: ctConts n cts)
  | 0, h => by omega
  | n + 1, h => by
    rw [ctConts_succ, ctConts_succ]
    by_cases e : j = n
    · subst e
      rw [ctConts_ge cts x j (le_refl _)]
      have : ctOf (put cts j x j) = [x.2] := by unfold put ctOf; rw [if_pos rfl]; rfl
      rw [this]
      refine List.perm_iff_count.mpr fun a => ?_
      simp only [List.count_append, List.count_cons, List.count_nil]
      omega
    · have : put cts j x n = cts n := by unfold put; rw [if_neg (fun h => e h.symm)]
      rw [this]
      have hlt : j < n := by omega
      have ih := ctConts_put cts x n hlt
      refine List.perm_iff_count.mpr fun a => ?_
      have := List.perm_iff_count.mp ih a
      simp only [List.count_append, List.count_cons, List.count_nil] at this ⊢
      omega

/-- A new ciphertext in slot `j`. -/
theorem Inv.put {j k : Nat} (h : Inv n (k :: l) v w) (hj : j < n) (x : Ciphertext G1 G2 GT) :
    Inv n (ctOf (w.cts j) ++ l) v { w with cts := put w.cts j (x, k) } := by
  refine h.perm ?_ ?_ h.order
  · have := ctConts_put w.cts (x, k) n hj
    rw [held_eq, held_eq]
    refine List.perm_iff_count.mpr fun a => ?_
    have := List.perm_iff_count.mp this a
    simp only [List.count_append, List.count_cons, List.count_nil] at this ⊢
    omega
  · intro i hi
    have hne : i ≠ j := by omega
    simp only [Cm.put, if_neg hne]
    exact h.top i hi

/-- The ciphertexts as values after the change. -/
theorem ctsOf_put {f : Nat → Container G1 G2 GT} {cts : Nat → Option (Ciphertext G1 G2 GT × Nat)} {j : Nat} {x : Ciphertext G1 G2 GT}
    {k : Nat} : ctsOf f (put cts j (x, k)) = Live.setCt (ctsOf f cts) j { x with comps := f k } := by
  funext i
  unfold ctsOf Live.setCt Cm.put
  by_cases h : i = j
  · simp only [if_pos h]
  · simp only [if_neg h]

theorem slot_run (cd : Codec G1 G2 GT) {j : Nat} (hj : j < n) (h : Inv n [] v w) (L : List (Cell G1 G2 GT)) :
    ∃ v' cts' x i, slot (onBook cd) j ((v, L), w) = (.ok (x, i), (v', L), { w with cts := cts' }) ∧ Inv n [] v' { w with cts := cts' } ∧
      asValues (vals v') { w with cts := cts' } = asValues (vals v) w ∧ cts' j = some (x, i) := by
  cases e : w.cts j with
  | some y =>
    refine ⟨v, w.cts, y.1, y.2, ?_, h, rfl, e⟩
    unfold slot
    simp only [mut_bind, Mut.bind, look, e]
    rfl
  | none =>
    have h1 := h.new.put hj ({} : Ciphertext G1 G2 GT)
    rw [e] at h1
    refine ⟨v ++ [some []], Cm.put w.cts j ({}, v.length), {}, v.length, ?_, h1, ?_, ?_⟩
    · unfold slot
      simp only [mut_bind, Mut.bind, look, e, mem, onBook]
      rfl
    · have hv : ∀ i ∈ held n w, vals (v ++ [some []]) i = vals v i := by
        intro i hi
        have := at_lt (h.some (i := i) hi)
        refine vals_eq ?_
        rw [at_append, if_neg (by omega)]
      rw [← asValues_congr (f := vals (v ++ [some []])) (g := vals v) h.top hv, asValues_eq, asValues_eq]
      congr 1
      rw [ctsOf_put]
      funext i
      unfold Live.setCt
      by_cases hi : i = j
      · subst hi
        rw [if_pos rfl]
        have : vals (v ++ [some []]) v.length = [] := vals_of (by rw [at_append, if_pos rfl])
        rw [this]
        unfold ctsOf; rw [e]
      · rw [if_neg hi]
    · unfold Cm.put; rw [if_pos rfl]

theorem putSlot_run (cd : Codec G1 G2 GT) {j k : Nat} (hj : j < n) (h : Inv n [k] v w) (x : Ciphertext G1 G2 GT) (L : List (Cell G1 G2 GT)) :
    ∃ v', putSlot (onBook cd) j (x, k) ((v, L), w) = (.ok (), (v', L), { w with cts := Cm.put w.cts j (x, k) }) ∧
      Inv n [] v' { w with cts := Cm.put w.cts j (x, k) } ∧
      asValues (vals v') { w with cts := Cm.put w.cts j (x, k) } =
        ⟨(asValues (vals v) w).ctx, Live.setCt (asValues (vals v) w).cts j { x with comps := vals v k }⟩ := by
  have h1 := h.put hj x
  have ev : ∀ v', Inv n [] v' { w with cts := Cm.put w.cts j (x, k) } →
      (∀ i ∈ held n { w with cts := Cm.put w.cts j (x, k) }, at_ v' i = at_ v i) →
      asValues (vals v') { w with cts := Cm.put w.cts j (x, k) } =
        ⟨(asValues (vals v) w).ctx, Live.setCt (asValues (vals v) w).cts j { x with comps := vals v k }⟩ := by
    intro v' hi hv
    rw [asValues_congr (g := vals v) hi.top fun i hi => vals_eq (hv i hi), asValues_eq, asValues_eq, ctsOf_put]
  cases e : w.cts j with
  | none =>
    rw [e] at h1
    have h1 : Inv n [] v { w with cts := Cm.put w.cts j (x, k) } := h1
    refine ⟨v, ?_, h1, ev v h1 fun _ _ => rfl⟩
    unfold putSlot
    simp only [mut_bind, Mut.bind, look, e, lift]
    rfl
  | some y =>
    rw [e] at h1
    have h1 : Inv n [y.2] v { w with cts := Cm.put w.cts j (x, k) } := h1
    refine ⟨v.set y.2 none, ?_, h1.gone, ev _ h1.gone fun i hi => ?_⟩
    · unfold putSlot
      have := drop_run cd ((h1.here y.2).mpr (by simp)) L
      simp only [mut_bind, Mut.bind, look, e, mem, this]
      rfl
    · rw [at_set, if_neg]
      rintro ⟨rfl, _⟩
      exact (List.nodup_cons.mp h1.nodup).1 hi

/-- Writing a container. -/
theorem write_run (cd : Codec G1 G2 GT) {k : Nat} (hat : at_ v k = some (vals v k)) (L : List (Cell G1 G2 GT)) :
    (onBook cd).write k (v, L) = (Container.serialize cd (vals v k), v, L ++ Mem.buffers cd (vals v k)) := by
  have hset : v.set k (some (vals v k)) = v := by
    apply List.ext_getElem?
    intro i
    rw [List.getElem?_set]
    split
    · rename_i e
      subst e
      have := at_lt hat
      rw [if_pos this]
      unfold at_ at hat
      rw [List.getElem?_eq_getElem this] at hat ⊢
      simp only [Option.join_some] at hat
      rw [hat]
    · rfl
  have := within_at (t := (v, L)) (m := (fun t => (Container.serialize cd t.1, t.1, t.2 ++ Mem.buffers cd t.1) :
    Mut (Ghost G1 G2 GT) Bytes)) hat
  simp only [hset] at this
  exact this

/-- Container `k` is destroyed after an exception. -/
def cleared {α : Type} (r : Res α) (v : Values G1 G2 GT) (k : Nat) : Values G1 G2 GT :=
  match r with
  | .throw _ => v.set k none
  | _ => v

/-- A container that is destroyed when the body throws. -/
theorem orElse_run {α : Type} (cd : Codec G1 G2 GT) {m : Mut (Book G1 G2 GT) α} {k : Nat} {s : Book G1 G2 GT} {r : Res α}
    (hm : m s = (r, v, L)) (hk : (at_ v k).isSome) :
    orElse m ((onBook cd).drop k) s = (r, cleared r v k, L) := by
  unfold orElse
  cases r with
  | throw e => simp only [hm, drop_run cd hk L]; rfl
  | ok a => simp only [hm]; rfl
  | ub => simp only [hm]; rfl
  | abort => simp only [hm]; rfl

/-- What a loaded blob gives is what the components give one after the other. -/
theorem deserLoop_put (mk : Mktime) (cd : Codec G1 G2 GT) (blob : Bytes) : ∀ (f i : Nat) (c c' : Container G1 G2 GT),
    Container.deserLoop mk cd blob f i c = .ok c' → c' = putAll c (Mem.entries mk cd blob f i) := by
  intro f
  induction f with
  | zero => intro i c c' h; cases h
  | succ f ih =>
    intro i c c' h
    simp only [Container.deserLoop] at h
    rw [Res.bind_eq_ok] at h
    obtain ⟨key, h1, h⟩ := h
    rw [Res.bind_eq_ok] at h
    obtain ⟨value, h2, h⟩ := h
    rw [Res.bind_eq_ok] at h
    obtain ⟨c1, h3, h⟩ := h
    unfold Container.deserializeElement at h3
    rw [Res.bind_eq_ok] at h3
    obtain ⟨o, h4, h3⟩ := h3
    simp only [Mem.entries, h1, h2, h4]
    have hc : c1 = putAll c (o.toList.map fun x => (key.1, x)) := by
      cases o with
      | none => simp only [Res.ok.injEq] at h3; subst h3; rfl
      | some o =>
        have ho := Mem.readObj_ne_null h4
        simp only [Mem.set_stored ho, Res.ok.injEq] at h3
        subst h3; rfl
    rw [Mem.putAll_append, ← hc]
    split at h
    · rename_i hlt
      rw [if_pos hlt]
      exact ih _ _ _ h
    · rename_i hlt
      rw [if_neg hlt]
      simp only [Res.ok.injEq] at h
      exact h.symm

theorem load_run (mk : Mktime) (cd : Codec G1 G2 GT) {k : Nat} (hat : at_ v k = some []) (body : Bytes) (L : List (Cell G1 G2 GT)) :
    ∃ v' r, Mem.load ((onBook cd).store k) mk cd body (v, L) =
        (r, v', L ++ overwritten [] (Mem.entries mk cd body (body.length + 1) 0)) ∧
      mapRes (fun _ => vals v' k) r = Container.deserialize mk cd [] body ∧ (at_ v' k).isSome ∧ ∀ x, x ≠ k → at_ v' x = at_ v x := by
  have hr : OnK v k (v, L) ([], L) := ⟨hat, fun _ _ => rfl, rfl⟩
  obtain ⟨e1, e2⟩ := sim_loadAny (onK_fill cd) mk cd body _ _ hr
  obtain ⟨g1, g2⟩ := Mem.load_ghost mk cd body ([], L)
  rcases hm : Mem.load ((onBook cd).store k) mk cd body (v, L) with ⟨r, v', L'⟩
  rw [hm] at e1 e2
  have hL : L' = L ++ overwritten [] (Mem.entries mk cd body (body.length + 1) 0) := by
    have := e2.lost
    rw [g2] at this
    exact this
  have ho := e2.out
  rw [g2] at ho
  simp only at ho
  subst hL
  refine ⟨v', r, rfl, ?_, by rw [ho]; rfl, e2.rest⟩
  rw [← e1] at g1
  rw [vals_of ho]
  unfold Container.deserialize at g1 ⊢
  cases hd : Container.deserLoop mk cd body (body.length + 1) 0 ([] : Container G1 G2 GT) with
  | ok c =>
    have := deserLoop_put mk cd body _ _ _ _ hd
    simp only [hd] at g1
    cases r with
    | ok a => simp only [mapRes, Res.ok.injEq]; exact this.symm
    | _ => cases g1
  | throw e =>
    simp only [hd] at g1
    cases r <;> simp only [Mem.answer, Res.throw.injEq, reduceCtorEq] at g1 ⊢
    simp [mapRes, g1]
  | ub =>
    simp only [hd] at g1
    cases r <;> simp only [Mem.answer, reduceCtorEq] at g1 ⊢
    rfl
  | abort =>
    simp only [hd] at g1
    cases r <;> simp only [Mem.answer, reduceCtorEq] at g1 ⊢
    rfl

theorem load_header (mk : Mktime) (cd : Codec G1 G2 GT) (blob : Bytes) : Ciphertext.load mk cd {} blob =
    ((ctHeader blob : Res (Ciphertext G1 G2 GT × Bytes)) >>= fun hb => Container.deserialize mk cd [] hb.2 >>= fun c => .ok { hb.1 with comps := c }) := by
  unfold Ciphertext.load ctHeader
  simp only
  split
  · rfl
  · cases BS.smartUnpack blob 0 with
    | ok x =>
      simp only [Res.ok_bind]
      split
      · cases BS.atR x.1 0 with
        | ok a =>
          simp only [Res.ok_bind]
          split
          · rfl
          · cases BS.atR x.1 1 with
            | ok b =>
              simp only [Res.ok_bind]
              cases getSchemeID b with
              | ok b =>
                simp only [Res.ok_bind]
                cases BS.smartUnpack blob x.2 with
                | ok y =>
                  simp only [Res.ok_bind]
                  split <;> rfl
                | _ => rfl
              | _ => rfl
            | _ => rfl
        | _ => rfl
      · rfl
    | _ => rfl

theorem parse_comps {blob rnd : Bytes} {k : Key G1 G2 GT} {body : Bytes} (h : Key.parseHeader blob rnd = .ok (k, body)) : k.comps = [] := by
  unfold Key.parseHeader at h
  rw [Res.bind_eq_ok] at h
  obtain ⟨r, h1, h2⟩ := h
  cases r with
  | none => cases h2
  | some p =>
    simp only [Res.ok.injEq] at h2
    subst h2
    unfold Key.construct at h1
    simp only at h1
    split at h1
    · cases h1
    · rw [Res.bind_eq_ok] at h1
      obtain ⟨x, _, h1⟩ := h1
      split at h1
      · rw [Res.bind_eq_ok] at h1
        obtain ⟨a, _, h1⟩ := h1
        split at h1
        · cases h1
        · rw [Res.bind_eq_ok] at h1
          obtain ⟨a, _, h1⟩ := h1
          split at h1
          · rw [Res.bind_eq_ok] at h1
            obtain ⟨y, _, h1⟩ := h1
            simp only [Res.ok.injEq, Option.some.injEq, Prod.mk.injEq] at h1
            rw [← h1.1]
            rfl
          · cases h1
      · cases h1

end

section Calls
variable {n : Nat} {v : Values G1 G2 GT} {w : Held G1 G2 GT} {L : List (Cell G1 G2 GT)}
variable {q : Nat} [Fact q.Prime]
variable [AddCommGroup G1] [Module (ZMod q) G1] [AddCommGroup G2] [Module (ZMod q) G2] [AddCommGroup GT]
  [Module (ZMod q) GT]

theorem fine_delete (env : Env G1 G2 GT) (cd : Codec G1 G2 GT) (sch : Scheme) (h : Inv n [] v w) (id : Bytes) :
    Fine n L (· = []) (Live.step env cd sch (asValues (vals v) w) (.deleteKey id : Live.Call q G1 G2))
      (step (onBook cd) env cd sch (.deleteKey id : Live.Call q G1 G2) ((v, L), w)) := by
  obtain ⟨v', e, h1, h2⟩ := deleteKey_run cd id h L
  have e1 : step (onBook cd) env cd sch (.deleteKey id : Live.Call q G1 G2) ((v, L), w) = _ := ret_run e
  rw [e1]
  have hd := del_map (keyOf (vals v)) w.ks id
  refine ⟨?_, fun _ => ⟨h1, ?_, [], by simp, rfl⟩⟩
  · simp only [Live.step, Cpa.deleteKey, asValues_eq, hd]; rfl
  · rw [asValues_congr h1.top fun i hi => vals_eq (h2 i hi)]
    simp only [Live.step, Cpa.deleteKey, asValues_eq, hd]

theorem fine_check (env : Env G1 G2 GT) (cd : Codec G1 G2 GT) (sch : Scheme) (h : Inv n [] v w) (id : Bytes) :
    Fine n L (· = []) (Live.step env cd sch (asValues (vals v) w) (.check id : Live.Call q G1 G2))
      (step (onBook cd) env cd sch (.check id : Live.Call q G1 G2) ((v, L), w)) := by
  refine ⟨?_, fun _ => ⟨h, rfl, [], by simp [step, look], rfl⟩⟩
  have := check_map (keyOf (vals v)) w.ks id
  show Res.ok (Live.Out.found (w.ks.checkSecretKey id)) = Res.ok (Live.Out.found ((mapKeys (keyOf (vals v)) w.ks).checkSecretKey id))
  rw [this]

theorem fine_hash (env : Env G1 G2 GT) (cd : Codec G1 G2 GT) (sch : Scheme) (h : Inv n [] v w) (id : Bytes) :
    Fine n L (· = []) (Live.step env cd sch (asValues (vals v) w) (.hashKey id : Live.Call q G1 G2))
      (step (onBook cd) env cd sch (.hashKey id : Live.Call q G1 G2) ((v, L), w)) := by
  have hp := h.pub id
  have hm := pub_map (keyOf (vals v)) w.ks id
  cases hk : (w.ks.getPublicKey id).1 with
  | none =>
    rw [hk] at hm
    have e : getHashKey (onBook cd) id ((v, L), w) = (.throw .invalidParams, (v, L), { w with ks := (w.ks.getPublicKey id).2 }) := by
      unfold getHashKey getPublicKey
      simp only [mut_bind, Mut.bind, look, hk, lift]
    have e1 : step (onBook cd) env cd sch (.hashKey id : Live.Call q G1 G2) ((v, L), w) = _ := ret_run e
    rw [e1]
    refine ⟨?_, fun _ => ⟨hp, ?_, [], by simp, rfl⟩⟩
    · simp only [Live.step, Live.getHashKey, asValues_eq, hm]; rfl
    · simp only [Live.step, Live.getHashKey, asValues_eq, hm]; rfl
  | some k =>
    rw [hk] at hm
    have hown : k.cont ∈ owners (w.ks.getPublicKey id).2 := List.mem_append_left _ (pointer_mem (pub_pointer hk))
    have hat := hp.some (i := k.cont) (mem_owners_held hown)
    have hlt := at_lt hat
    let v' := v.set k.cont (some (Container.getComponent (vals v k.cont) b!"k").2)
    have ev : vals v' k.cont = (Container.getComponent (vals v k.cont) b!"k").2 := vals_of (by
      show at_ (v.set _ _) _ = _
      rw [at_set, if_pos ⟨rfl, hlt⟩])
    have eo : ∀ i, i ≠ k.cont → at_ v' i = at_ v i := fun i hi => by
      show at_ (v.set _ _) _ = _
      rw [at_set, if_neg (fun e => hi e.1)]
    have hi : Inv n [] v' { w with ks := (w.ks.getPublicKey id).2 } := hp.change fun i => by
      by_cases hi : i = k.cont
      · subst hi
        show (at_ (v.set _ _) _).isSome = _
        rw [at_set, if_pos ⟨rfl, hlt⟩, hat]; rfl
      · rw [eo i hi]
    have e : getHashKey (onBook cd) id ((v, L), w) =
        ((do let o ← (Container.getComponent (vals v k.cont) b!"k").1; .ok (asBytes o)), (v', L), { w with ks := (w.ks.getPublicKey id).2 }) := by
      unfold getHashKey getPublicKey
      have hw : (onBook cd).get k.cont b!"k" (v, L) = ((Container.getComponent (vals v k.cont) b!"k").1, v', L) := by
        show within _ _ _ = _
        rw [within_at (t := (v, L)) hat]; rfl
      simp only [mut_bind, Mut.bind, look, hk, mem, hw]
      cases (Container.getComponent (vals v k.cont) b!"k").1 <;> rfl
    have e1 : step (onBook cd) env cd sch (.hashKey id : Live.Call q G1 G2) ((v, L), w) = _ := ret_run e
    rw [e1]
    have hset := setPub_map (f := vals v) (g := vals v') hp.order hp.owners_nodup (pub_pointer hk) fun i _ hi => (vals_eq (eo i hi)).symm
    have hct : ctsOf (vals v') w.cts = ctsOf (vals v) w.cts := ctsOf_congr hp.top fun i hi => vals_eq (eo i (by
      rintro rfl
      exact (List.nodup_append.mp (List.nodup_append.mp hp.nodup).2.1).2.2 _ hown _ hi rfl))
    refine ⟨?_, fun _ => ⟨hi, ?_, [], by simp, rfl⟩⟩
    · simp only [Live.step, Live.getHashKey, asValues_eq, hm, Option.map_some]; rfl
    · simp only [Live.step, Live.getHashKey, asValues_eq, hm, Option.map_some, hct]
      rw [← hset, ev]; rfl

theorem fine_exportKey (env : Env G1 G2 GT) (cd : Codec G1 G2 GT) (sch : Scheme) (h : Inv n [] v w) (id : Bytes) :
    Fine n L (fun D => D.length = left env cd sch (asValues (vals v) w) (.exportKey id : Live.Call q G1 G2))
      (Live.step env cd sch (asValues (vals v) w) (.exportKey id : Live.Call q G1 G2))
      (step (onBook cd) env cd sch (.exportKey id : Live.Call q G1 G2) ((v, L), w)) := by
  have hp := h.key id
  have hm := key_map (keyOf (vals v)) w.ks id
  cases hk : (w.ks.getKey id).1 with
  | none =>
    rw [hk] at hm
    have e : exportKey (onBook cd) id ((v, L), w) = (.ok (.error .invalidInput), (v, L), { w with ks := (w.ks.getKey id).2 }) := by
      unfold exportKey getKey
      simp only [mut_bind, Mut.bind, look, hk, lift]
    have e1 : step (onBook cd) env cd sch (.exportKey id : Live.Call q G1 G2) ((v, L), w) = _ := ret_run e
    rw [e1]
    refine ⟨?_, fun _ => ⟨hp, ?_, [], by simp, ?_⟩⟩
    · simp only [Live.step, Live.exportKey, asValues_eq, hm]; rfl
    · simp only [Live.step, Live.exportKey, asValues_eq, hm]; rfl
    · simp only [left, asValues_eq, hm]; rfl
  | some k =>
    rw [hk] at hm
    have hown := key_owned h.order hk
    have hat := h.some (i := k.cont) (mem_owners_held hown)
    have hw := write_run cd hat L
    have e : exportKey (onBook cd) id ((v, L), w) =
        ((do match ← caught ((keyOf (vals v) k).exportBytes cd) with
          | .error _ => .ok (.error .invalidInput)
          | .ok b => .ok (.ok b)), (v, L ++ Mem.buffers cd (vals v k.cont)), { w with ks := (w.ks.getKey id).2 }) := by
      unfold exportKey getKey
      simp only [mut_bind, Mut.bind, look, hk, mem, attempt, hw]
      unfold Key.exportBytes
      have : (keyOf (vals v) k).comps = vals v k.cont := rfl
      rw [this]
      cases Container.serialize cd (vals v k.cont) with
      | ok b => rfl
      | throw e => cases e <;> rfl
      | ub => rfl
      | abort => rfl
    have e1 : step (onBook cd) env cd sch (.exportKey id : Live.Call q G1 G2) ((v, L), w) = _ := ret_run e
    rw [e1]
    refine ⟨?_, fun _ => ⟨hp, ?_, _, rfl, ?_⟩⟩
    · simp only [Live.step, Live.exportKey, asValues_eq, hm, Option.map_some]
      cases caught (Key.exportBytes cd (keyOf (vals v) k)) with
      | ok x => cases x <;> rfl
      | _ => rfl
    · simp only [Live.step, Live.exportKey, asValues_eq, hm, Option.map_some]
    · simp only [left, asValues_eq, hm, Option.map_some]; rfl

end Calls
end Cm
end Abe
