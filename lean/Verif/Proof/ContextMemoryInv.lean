import Verif.Proof.ContextMemoryBodies
import Verif.Proof.SchemeObjects
/-! What the program holds: every container belongs to exactly one key or ciphertext. -/
set_option linter.unusedSimpArgs false
set_option linter.unusedSectionVars false
set_option autoImplicit false
namespace Abe
namespace Cm
open Live (Mut lift asZP asG1 asG2 asGT asBytes Two mapRes)
open Scheme
open Mem (Store Cell Heap Ptrs SimR Agree WRel Values at_ Ghost stored under)
variable {G1 G2 GT : Type}

/-! ## Lists of containers -/

/-- The components of container `i`. -/
def vals (v : Values G1 G2 GT) (i : Nat) : Container G1 G2 GT := (at_ v i).getD []

theorem at_set (v : Values G1 G2 GT) (i x : Nat) (c : Option (Container G1 G2 GT)) :
    at_ (v.set i c) x = if x = i ∧ i < v.length then c else at_ v x := by
  unfold at_
  rw [List.getElem?_set]
  by_cases h : i = x
  · subst h
    by_cases hl : i < v.length
    · simp [hl]
    · simp [hl]
  · rw [if_neg h, if_neg (fun e => h e.1.symm)]

theorem at_append (v : Values G1 G2 GT) (x : Nat) :
    at_ (v ++ [some []]) x = if x = v.length then some [] else at_ v x := by
  unfold at_
  by_cases h : x = v.length
  · subst h; simp
  · rw [if_neg h]
    by_cases hl : x < v.length
    · rw [List.getElem?_append_left hl]
    · rw [List.getElem?_eq_none (by simp; omega), List.getElem?_eq_none (by omega)]

theorem at_lt {v : Values G1 G2 GT} {i : Nat} {c : Container G1 G2 GT} (h : at_ v i = some c) : i < v.length := by
  by_contra hn
  unfold at_ at h
  rw [List.getElem?_eq_none (by omega)] at h; cases h

/-! ## Keystores of pointers -/

theorem pub_map {K K' : Type} (f : K → K') (ks : KeyStore K) (id : Bytes) :
    (mapKeys f ks).getPublicKey id = ((ks.getPublicKey id).1.map f, mapKeys f (ks.getPublicKey id).2) := by
  unfold KeyStore.getPublicKey KeyStore.touch mapKeys
  simp only [Mem.find_mapVal]
  cases SMap.find id ks.pub with
  | none => simp only [Option.map_none, Mem.insert_mapVal]
  | some v => simp only [Option.map_some]

theorem sec_map {K K' : Type} (f : K → K') (ks : KeyStore K) (id : Bytes) :
    (mapKeys f ks).getSecretKey id = ((ks.getSecretKey id).1.map f, mapKeys f (ks.getSecretKey id).2) := by
  unfold KeyStore.getSecretKey KeyStore.touch mapKeys
  simp only [Mem.find_mapVal]
  cases SMap.find id ks.sec with
  | none => simp only [Option.map_none, Mem.insert_mapVal]
  | some v => simp only [Option.map_some]

theorem key_map {K K' : Type} (f : K → K') (ks : KeyStore K) (id : Bytes) :
    (mapKeys f ks).getKey id = ((ks.getKey id).1.map f, mapKeys f (ks.getKey id).2) := by
  unfold KeyStore.getKey
  simp only [pub_map]
  cases (ks.getPublicKey id).1 with
  | none => simp only [Option.map_none, sec_map]
  | some k => rfl

theorem validate_map {K K' : Type} (f : K → K') (ks : KeyStore K) (id : Bytes) :
    (mapKeys f ks).validateNewParamsID id = ((ks.validateNewParamsID id).1, mapKeys f (ks.validateNewParamsID id).2) := by
  unfold KeyStore.validateNewParamsID
  simp only [key_map]
  cases (ks.getKey id).1 <;> rfl

theorem add_map {K K' : Type} (f : K → K') (ks : KeyStore K) (id : Bytes) (k : K) (kind : KeyKind) :
    (mapKeys f ks).addKey id (f k) kind = mapKeys f (ks.addKey id k kind) := by
  cases kind
  · simp only [KeyStore.addKey, mapKeys, Mem.insert_mapVal, Option.map_some]
  · simp only [KeyStore.addKey, mapKeys, Mem.insert_mapVal, Option.map_some]
  · rfl

theorem del_map {K K' : Type} (f : K → K') (ks : KeyStore K) (id : Bytes) :
    (mapKeys f ks).deleteKey id = ((ks.deleteKey id).1, mapKeys f (ks.deleteKey id).2) := by
  unfold KeyStore.deleteKey
  simp only [key_map]
  cases (ks.getKey id).1 with
  | none => rfl
  | some k =>
    simp only [Option.map_some, mapKeys, Mem.find_mapVal, Mem.erase_mapVal, Option.isSome_map]
    split <;> simp only [Mem.erase_mapVal]

theorem check_map {K K' : Type} (f : K → K') (ks : KeyStore K) (id : Bytes) :
    (mapKeys f ks).checkSecretKey id = ks.checkSecretKey id := by
  simp only [KeyStore.checkSecretKey, mapKeys, Mem.find_mapVal, Option.isSome_map]

/-- Both maps are in order. -/
def Ordered {K : Type} (ks : KeyStore K) : Prop := SMap.Sorted ks.pub ∧ SMap.Sorted ks.sec

theorem touch_sorted {K : Type} {m : SMap (Option K)} (h : SMap.Sorted m) (id : Bytes) : SMap.Sorted (KeyStore.touch m id).2 := by
  unfold KeyStore.touch
  cases SMap.find id m with
  | none => exact SMap.sorted_insert h
  | some v => exact h

theorem Ordered.pub {K : Type} {ks : KeyStore K} (h : Ordered ks) (id : Bytes) : Ordered (ks.getPublicKey id).2 :=
  ⟨touch_sorted h.1 id, h.2⟩

theorem Ordered.sec {K : Type} {ks : KeyStore K} (h : Ordered ks) (id : Bytes) : Ordered (ks.getSecretKey id).2 :=
  ⟨h.1, touch_sorted h.2 id⟩

theorem Ordered.key {K : Type} {ks : KeyStore K} (h : Ordered ks) (id : Bytes) : Ordered (ks.getKey id).2 := by
  unfold KeyStore.getKey
  simp only
  cases (ks.getPublicKey id).1 with
  | none => exact (h.pub id).sec id
  | some k => exact h.pub id

theorem Ordered.validate {K : Type} {ks : KeyStore K} (h : Ordered ks) (id : Bytes) : Ordered (ks.validateNewParamsID id).2 := h.key id

theorem Ordered.add {K : Type} {ks : KeyStore K} (h : Ordered ks) (id : Bytes) (k : K) (kind : KeyKind) : Ordered (ks.addKey id k kind) := by
  cases kind
  · exact ⟨SMap.sorted_insert h.1, h.2⟩
  · exact ⟨h.1, SMap.sorted_insert h.2⟩
  · exact h

theorem Ordered.del {K : Type} {ks : KeyStore K} (h : Ordered ks) (id : Bytes) : Ordered (ks.deleteKey id).2 := by
  unfold KeyStore.deleteKey
  have := h.key id
  simp only
  cases (ks.getKey id).1 with
  | none => exact this
  | some k =>
    simp only
    split <;> exact ⟨SMap.sorted_erase this.1, SMap.sorted_erase this.2⟩

/-! ## The containers of a keystore -/

section Owners
variable {m : SMap (Option (HKey G1 G2 GT))}

theorem mem_keyConts {i : Nat} : i ∈ keyConts m ↔ ∃ id k, (id, some k) ∈ m ∧ k.cont = i := by
  unfold keyConts
  simp only [List.mem_filterMap, Option.map_eq_some_iff]
  constructor
  · rintro ⟨⟨id, o⟩, h, k, hk, e⟩
    simp only at hk; subst hk
    exact ⟨id, k, h, e⟩
  · rintro ⟨id, k, h, e⟩
    exact ⟨(id, some k), h, k, rfl, e⟩

theorem pointer_mem {id : Bytes} {k : HKey G1 G2 GT} (h : pointer id m = some k) : k.cont ∈ keyConts m := by
  unfold pointer at h
  refine mem_keyConts.mpr ⟨id, k, SMap.mem_of_find ?_, rfl⟩
  cases e : SMap.find id m with
  | none => rw [e] at h; cases h
  | some o => rw [e] at h; simp only [Option.join_some] at h; rw [h]

theorem conts_insert_none (hs : SMap.Sorted m) {id : Bytes} (hf : SMap.find id m = none) :
    keyConts (SMap.insert id none m) = keyConts m := by
  unfold keyConts
  induction m with
  | nil => rfl
  | cons e m ih =>
    obtain ⟨k', v⟩ := e
    simp only [SMap.find] at hf
    split at hf
    · cases hf
    · rename_i hne
      simp only [SMap.insert, if_neg hne]
      split
      · rfl
      · simp only [List.filterMap_cons]
        cases v with
        | none => simpa using ih hs.2 hf
        | some v => simpa using ih hs.2 hf

theorem conts_touch (hs : SMap.Sorted m) (id : Bytes) : keyConts (KeyStore.touch m id).2 = keyConts m := by
  unfold KeyStore.touch
  cases h : SMap.find id m with
  | none => exact conts_insert_none hs h
  | some v => rfl

theorem conts_perm {m m' : SMap (Option (HKey G1 G2 GT))} (h : m.Perm m') : (keyConts m).Perm (keyConts m') := h.filterMap _

/-- The container of a pointer. -/
def contOf (k : Option (HKey G1 G2 GT)) : List Nat := (k.map (·.cont)).toList

theorem conts_cons (id : Bytes) (o : Option (HKey G1 G2 GT)) : keyConts ((id, o) :: m) = contOf o ++ keyConts m := by
  cases o <;> rfl

theorem conts_insert_some (hs : SMap.Sorted m) (id : Bytes) (k : HKey G1 G2 GT) :
    (contOf (pointer id m) ++ keyConts (SMap.insert id (some k) m)).Perm (k.cont :: keyConts m) := by
  unfold pointer
  rcases Mem.insert_cases hs id (some k) with ⟨h1, h2⟩ | ⟨o, m', h1, h2, h3⟩
  · rw [h1]
    exact conts_perm h2
  · rw [h1]
    refine ((conts_perm h3).append_left _).trans (.trans ?_ ((conts_perm h2).symm.cons _))
    rw [conts_cons, conts_cons]
    simp only [Option.join_some]
    show List.Perm (contOf o ++ k.cont :: _) _
    exact List.perm_middle

theorem conts_erase (hs : SMap.Sorted m) (id : Bytes) :
    (contOf (pointer id m) ++ keyConts (SMap.erase id m)).Perm (keyConts m) := by
  unfold pointer
  rcases Mem.erase_cases hs id with ⟨h1, h2⟩ | ⟨o, h1, h2⟩
  · rw [h1, h2]; exact .refl _
  · rw [h1]
    refine .trans ?_ (conts_perm h2).symm
    rw [conts_cons]; exact .refl _

end Owners

theorem owners_pub {ks : KeyStore (HKey G1 G2 GT)} (h : Ordered ks) (id : Bytes) : owners (ks.getPublicKey id).2 = owners ks := by
  unfold owners KeyStore.getPublicKey
  simp only [conts_touch h.1]

theorem owners_sec {ks : KeyStore (HKey G1 G2 GT)} (h : Ordered ks) (id : Bytes) : owners (ks.getSecretKey id).2 = owners ks := by
  unfold owners KeyStore.getSecretKey
  simp only [conts_touch h.2]

theorem owners_key {ks : KeyStore (HKey G1 G2 GT)} (h : Ordered ks) (id : Bytes) : owners (ks.getKey id).2 = owners ks := by
  unfold KeyStore.getKey
  simp only
  cases (ks.getPublicKey id).1 with
  | none => simp only [owners_sec (h.pub id), owners_pub h]
  | some k => exact owners_pub h id

theorem owners_validate {ks : KeyStore (HKey G1 G2 GT)} (h : Ordered ks) (id : Bytes) :
    owners (ks.validateNewParamsID id).2 = owners ks := owners_key h id

/-- The pointer that `addKey` overwrites. -/
def replaced (id : Bytes) (ks : KeyStore (HKey G1 G2 GT)) : KeyKind → Option (HKey G1 G2 GT)
  | .pub => pointer id ks.pub
  | .sec => pointer id ks.sec
  | .other => none

theorem owners_add {ks : KeyStore (HKey G1 G2 GT)} (h : Ordered ks) (id : Bytes) (k : HKey G1 G2 GT) {kind : KeyKind}
    (hk : kind ≠ .other) : (contOf (replaced id ks kind) ++ owners (ks.addKey id k kind)).Perm (k.cont :: owners ks) := by
  unfold owners
  cases kind with
  | pub =>
    show List.Perm (contOf (pointer id ks.pub) ++ (keyConts (SMap.insert id (some k) ks.pub) ++ keyConts ks.sec)) _
    rw [← List.append_assoc]
    exact (conts_insert_some h.1 id k).append_right _
  | sec =>
    show List.Perm (contOf (pointer id ks.sec) ++ (keyConts ks.pub ++ keyConts (SMap.insert id (some k) ks.sec))) _
    have h1 := conts_insert_some h.2 id k
    refine List.perm_iff_count.mpr fun a => ?_
    have := List.perm_iff_count.mp h1 a
    simp only [List.count_append, List.count_cons] at this ⊢
    omega
  | other => exact absurd rfl hk

theorem pointer_none_of {m : SMap (Option (HKey G1 G2 GT))} {id : Bytes} (h : (KeyStore.touch m id).1 = none) : pointer id m = none := by
  unfold KeyStore.touch at h
  unfold pointer
  cases e : SMap.find id m with
  | none => rfl
  | some o => rw [e] at h; simp only at h; subst h; rfl

theorem touch_pointer (m : SMap (Option (HKey G1 G2 GT))) (id : Bytes) : (KeyStore.touch m id).1 = pointer id m := by
  unfold KeyStore.touch pointer
  cases SMap.find id m <;> rfl

theorem pointer_touch (m : SMap (Option (HKey G1 G2 GT))) (id : Bytes) : pointer id (KeyStore.touch m id).2 = pointer id m := by
  unfold KeyStore.touch pointer
  cases e : SMap.find id m with
  | none => simp only [SMap.find_insert, if_pos rfl]; rfl
  | some o => simp only [e]

theorem owners_del {ks : KeyStore (HKey G1 G2 GT)} (h : Ordered ks) (id : Bytes) :
    (contOf (pointer id ks.pub) ++ (contOf (pointer id ks.sec) ++ owners (ks.deleteKey id).2)).Perm (owners ks) := by
  have key : ∀ ks' : KeyStore (HKey G1 G2 GT), Ordered ks' → owners ks' = owners ks → pointer id ks'.pub = pointer id ks.pub →
      pointer id ks'.sec = pointer id ks.sec → (contOf (pointer id ks.pub) ++ (contOf (pointer id ks.sec) ++
        owners ⟨SMap.erase id ks'.pub, SMap.erase id ks'.sec⟩)).Perm (owners ks) := by
    intro ks' ho e1 e2 e3
    rw [← e1, ← e2, ← e3]
    unfold owners
    simp only
    refine List.Perm.trans ?_ ((conts_erase ho.1 id).append (conts_erase ho.2 id))
    rw [List.append_assoc]
    refine List.Perm.append_left _ ?_
    rw [← List.append_assoc, ← List.append_assoc]
    exact List.perm_append_comm.append_right _
  have hk := h.key id
  have ho := owners_key h id
  have ep : pointer id (ks.getKey id).2.pub = pointer id ks.pub := by
    unfold KeyStore.getKey
    simp only
    cases (ks.getPublicKey id).1 <;> exact pointer_touch _ _
  have es : pointer id (ks.getKey id).2.sec = pointer id ks.sec := by
    unfold KeyStore.getKey
    simp only
    cases (ks.getPublicKey id).1 with
    | none => exact pointer_touch _ _
    | some k => rfl
  cases hf : (ks.getKey id).1 with
  | some k =>
    have e : (ks.deleteKey id).2 = ⟨SMap.erase id (ks.getKey id).2.pub, SMap.erase id (ks.getKey id).2.sec⟩ := by
      unfold KeyStore.deleteKey
      simp only [hf]
      split <;> rfl
    rw [e]
    exact key _ hk ho ep es
  | none =>
    have e : (ks.deleteKey id).2 = (ks.getKey id).2 := by
      unfold KeyStore.deleteKey
      simp only [hf]
    rw [e, ho]
    have h1 : pointer id ks.pub = none ∧ pointer id ks.sec = none := by
      unfold KeyStore.getKey at hf
      simp only at hf
      cases e : (ks.getPublicKey id).1 with
      | some k => rw [e] at hf; cases hf
      | none =>
        rw [e] at hf
        exact ⟨(touch_pointer _ _).symm.trans e, (touch_pointer ks.sec _).symm.trans hf⟩
    rw [h1.1, h1.2]; exact .refl _

/-! ## The invariant -/

/-- Every container belongs to one key, one ciphertext below `n` or is one of the local objects `l`. -/
structure Inv (n : Nat) (l : List Nat) (v : Values G1 G2 GT) (w : Held G1 G2 GT) : Prop where
  nodup : (l ++ held n w).Nodup
  here : ∀ i, (at_ v i).isSome ↔ i ∈ l ++ held n w
  top : ∀ j, n ≤ j → w.cts j = none
  order : Ordered w.ks

section Inv
variable {n : Nat} {l : List Nat} {v : Values G1 G2 GT} {w : Held G1 G2 GT}

theorem Inv.perm (h : Inv n l v w) {l' : List Nat} {w' : Held G1 G2 GT} (hp : (l' ++ held n w').Perm (l ++ held n w))
    (ht : ∀ j, n ≤ j → w'.cts j = none) (ho : Ordered w'.ks) : Inv n l' v w' :=
  ⟨hp.nodup_iff.mpr h.nodup, fun i => (h.here i).trans hp.symm.mem_iff, ht, ho⟩

/-- Another keystore with the same keys. -/
theorem Inv.store (h : Inv n l v w) {ks : KeyStore (HKey G1 G2 GT)} (e : owners ks = owners w.ks) (ho : Ordered ks) :
    Inv n l v { w with ks := ks } := by
  refine h.perm ?_ h.top ho
  unfold held
  simp only [e]
  exact .refl _

theorem Inv.new (h : Inv n l v w) : Inv n (v.length :: l) (v ++ [some []]) w := by
  have hn : v.length ∉ l ++ held n w := by
    intro hm
    have := (h.here _).mpr hm
    obtain ⟨c, hc⟩ := Option.isSome_iff_exists.mp this
    exact absurd (at_lt hc) (lt_irrefl _)
  refine ⟨List.nodup_cons.mpr ⟨hn, h.nodup⟩, fun i => ?_, h.top, h.order⟩
  rw [at_append, List.cons_append, List.mem_cons, ← h.here]
  by_cases hi : i = v.length
  · simp [hi]
  · simp [hi]

theorem Inv.gone {k : Nat} (h : Inv n (k :: l) v w) : Inv n l (v.set k none) w := by
  have hn := List.nodup_cons.mp h.nodup
  have hk : k < v.length := by
    obtain ⟨c, hc⟩ := Option.isSome_iff_exists.mp ((h.here k).mpr (by simp))
    exact at_lt hc
  refine ⟨hn.2, fun i => ?_, h.top, h.order⟩
  rw [at_set]
  by_cases hi : i = k
  · subst hi
    rw [if_pos ⟨rfl, hk⟩]
    simpa using hn.1
  · rw [if_neg (fun e => hi e.1), h.here, List.cons_append, List.mem_cons]
    simp [hi]

/-- The containers have other components. -/
theorem Inv.change (h : Inv n l v w) {v' : Values G1 G2 GT} (e : ∀ i, (at_ v' i).isSome = (at_ v i).isSome) : Inv n l v' w :=
  ⟨h.nodup, fun i => by rw [e]; exact h.here i, h.top, h.order⟩

theorem Inv.some (h : Inv n l v w) {i : Nat} (hi : i ∈ l ++ held n w) : at_ v i = some (vals v i) := by
  obtain ⟨c, hc⟩ := Option.isSome_iff_exists.mp ((h.here i).mpr hi)
  unfold vals; rw [hc]; rfl

theorem drop_run (cd : Codec G1 G2 GT) {k : Nat} (h : (at_ v k).isSome) (L : List (Cell G1 G2 GT)) :
    (onBook cd).drop k (v, L) = (.ok (), v.set k none, L) := by
  obtain ⟨c, hc⟩ := Option.isSome_iff_exists.mp h
  simp only [onBook, hc]

theorem mem_owners_held {i : Nat} (h : i ∈ owners w.ks) : i ∈ held n w := List.mem_append_left _ h

theorem release_run (cd : Codec G1 G2 GT) {o : Option (HKey G1 G2 GT)} (h : Inv n (contOf o ++ l) v w) (L : List (Cell G1 G2 GT)) :
    ∃ v', release (onBook cd) o ((v, L), w) = (.ok (), (v', L), w) ∧ Inv n l v' w ∧ ∀ i ∈ l ++ held n w, at_ v' i = at_ v i := by
  cases o with
  | none => exact ⟨v, rfl, h, fun _ _ => rfl⟩
  | some k =>
    have h : Inv n (k.cont :: l) v w := h
    have hn := (List.nodup_cons.mp h.nodup).1
    refine ⟨v.set k.cont none, ?_, h.gone, ?_⟩
    · unfold release
      simp only
      rw [if_neg (fun hm => hn (List.mem_append_right _ (mem_owners_held hm)))]
      simp only [mem, drop_run cd ((h.here k.cont).mpr (by simp)) L]
    · intro i hi
      rw [at_set, if_neg]
      rintro ⟨rfl, _⟩
      exact hn hi

theorem release_keep (cd : Codec G1 G2 GT) {k : HKey G1 G2 GT} (h : k.cont ∈ owners w.ks) (t : Book G1 G2 GT) :
    release (onBook cd) (some k) (t, w) = (.ok (), t, w) := by
  unfold release; simp only; rw [if_pos h]

theorem mem_add (ks : KeyStore (HKey G1 G2 GT)) (id : Bytes) (k : HKey G1 G2 GT) {kind : KeyKind} (hk : kind ≠ .other) :
    k.cont ∈ owners (ks.addKey id k kind) := by
  have : ∀ m : SMap (Option (HKey G1 G2 GT)), k.cont ∈ keyConts (SMap.insert id (some k) m) := fun m =>
    pointer_mem (id := id) (by unfold pointer; rw [SMap.find_insert, if_pos rfl]; rfl)
  cases kind with
  | pub => exact List.mem_append_left _ (this _)
  | sec => exact List.mem_append_right _ (this _)
  | other => exact absurd rfl hk

theorem addKey_run (cd : Codec G1 G2 GT) {id : Bytes} {k : HKey G1 G2 GT} (kind : KeyKind) (h : Inv n (k.cont :: l) v w)
    (L : List (Cell G1 G2 GT)) : ∃ v', addKey (onBook cd) id k kind ((v, L), w) =
        (.ok (), (v', L), { w with ks := w.ks.addKey id k kind }) ∧
      Inv n l v' { w with ks := w.ks.addKey id k kind } ∧
      ∀ i ∈ l ++ held n { w with ks := w.ks.addKey id k kind }, at_ v' i = at_ v i := by
  by_cases hk : kind = .other
  · subst hk
    obtain ⟨v', e, r⟩ := release_run cd (o := some k) h L
    refine ⟨v', ?_, r⟩
    unfold addKey
    simp only [mut_bind, Mut.bind, look, release, lift]
    exact e
  · have h' : Inv n (contOf (replaced id w.ks kind) ++ l) v { w with ks := w.ks.addKey id k kind } := by
      refine h.perm ?_ h.top (h.order.add id k kind)
      have ho := owners_add h.order id k hk
      unfold held
      simp only
      refine List.perm_iff_count.mpr fun a => ?_
      have := List.perm_iff_count.mp ho a
      simp only [List.count_append, List.count_cons] at this ⊢
      omega
    obtain ⟨v', e, r1, r2⟩ := release_run cd h' L
    refine ⟨v', ?_, r1, r2⟩
    have e2 := release_keep cd (w := { w with ks := w.ks.addKey id k kind }) (mem_add w.ks id k hk) (v', L)
    unfold addKey
    simp only [mut_bind, Mut.bind, look]
    cases kind with
    | pub => simp only [replaced] at e; rw [e]; exact e2
    | sec => simp only [replaced] at e; rw [e]; exact e2
    | other => exact absurd rfl hk

theorem deleteKey_run (cd : Codec G1 G2 GT) (id : Bytes) (h : Inv n l v w) (L : List (Cell G1 G2 GT)) :
    ∃ v', deleteKey (onBook cd) id ((v, L), w) =
        (.ok (w.ks.deleteKey id).1, (v', L), { w with ks := (w.ks.deleteKey id).2 }) ∧
      Inv n l v' { w with ks := (w.ks.deleteKey id).2 } ∧
      ∀ i ∈ l ++ held n { w with ks := (w.ks.deleteKey id).2 }, at_ v' i = at_ v i := by
  have h' : Inv n (contOf (pointer id w.ks.pub) ++ (contOf (pointer id w.ks.sec) ++ l)) v { w with ks := (w.ks.deleteKey id).2 } := by
    refine h.perm ?_ h.top (h.order.del id)
    have ho := owners_del h.order id
    unfold held
    simp only
    refine List.perm_iff_count.mpr fun a => ?_
    have := List.perm_iff_count.mp ho a
    simp only [List.count_append, List.count_cons] at this ⊢
    omega
  obtain ⟨v1, e1, r1, s1⟩ := release_run cd h' L
  obtain ⟨v2, e2, r2, s2⟩ := release_run cd r1 L
  refine ⟨v2, ?_, r2, fun i hi => (s2 i hi).trans (s1 i ?_)⟩
  · unfold deleteKey
    simp only [mut_bind, Mut.bind, look, lift]
    rw [e1]; simp only [e2]
  · rw [List.append_assoc]; exact List.mem_append_right _ hi

end Inv
end Cm
end Abe
