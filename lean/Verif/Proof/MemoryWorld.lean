import Verif.Proof.Memory
/-! Histories of calls on any number of containers. -/
set_option linter.unusedSimpArgs false
set_option linter.unusedSectionVars false
set_option autoImplicit false
namespace Abe
namespace Mem
open Live (Mut lift)
variable {G1 G2 GT : Type}

/-! ## Reading a blob -/

theorem readObj_ne_null {mk : Mktime} {cd : Codec G1 G2 GT} {b : Bytes} {o : Obj G1 G2 GT}
    (h : Container.readObj mk cd b = .ok (some o)) : o ≠ .null := by
  rintro rfl
  unfold Container.readObj at h
  cases b with
  | nil => cases h
  | cons ty r =>
    simp only at h
    split at h
    · rw [Res.bind_eq_ok] at h; obtain ⟨_, _, h⟩ := h; cases h
    split at h
    · rw [Res.bind_eq_ok] at h; obtain ⟨_, _, h⟩ := h; cases h
    split at h
    · rw [Res.bind_eq_ok] at h; obtain ⟨_, _, h⟩ := h; cases h
    split at h
    · rw [Res.bind_eq_ok] at h; obtain ⟨_, _, h⟩ := h; cases h
    split at h
    · rw [Res.bind_eq_ok] at h; obtain ⟨_, _, h⟩ := h; cases h
    split at h
    · cases h
    split at h
    · rw [Res.bind_eq_ok] at h; obtain ⟨r, _, h⟩ := h; cases r <;> cases h
    split at h
    · rw [Res.bind_eq_ok] at h; obtain ⟨r, _, h⟩ := h; cases r <;> cases h
    split at h
    · cases h
    · cases h

theorem set_stored {c : Container G1 G2 GT} {n : Bytes} {o : Obj G1 G2 GT} (ho : o ≠ .null) :
    Container.setComponent c n o = .ok (SMap.insert n (stored o) c) := by
  cases o <;> first | exact absurd rfl ho | rfl

theorem ghost_set {t : Ghost G1 G2 GT} {n : Bytes} {o : Obj G1 G2 GT} (ho : o ≠ .null) :
    onGhost.set n o t = (.ok (), SMap.insert n (stored o) t.1, t.2 ++ under t.1 n) := by
  cases o <;> first | exact absurd rfl ho | rfl

/-- Components set one after the other. -/
def putAll (c : Container G1 G2 GT) (l : List (Bytes × Obj G1 G2 GT)) : Container G1 G2 GT :=
  l.foldl (fun c e => SMap.insert e.1 (stored e.2) c) c

theorem loadLoop_ghost (mk : Mktime) (cd : Codec G1 G2 GT) (blob : Bytes) : ∀ (f i : Nat) (t : Ghost G1 G2 GT),
    answer (fun _ => .done) (loadLoop onGhost mk cd blob f i t).1 =
        answer (G1 := G1) (G2 := G2) (GT := GT) (fun _ => .done) (Container.deserLoop mk cd blob f i t.1) ∧
      (loadLoop onGhost mk cd blob f i t).2 =
        (putAll t.1 (entries mk cd blob f i), t.2 ++ overwritten t.1 (entries mk cd blob f i)) := by
  intro f
  induction f with
  | zero => intro i t; simp [loadLoop, lift, Container.deserLoop, entries, putAll, overwritten]; rfl
  | succ f ih =>
    intro i t
    simp only [loadLoop, Container.deserLoop, entries]
    show answer _ (Mut.bind _ _ t).1 = _ ∧ (Mut.bind _ _ t).2 = _
    simp only [Mut.bind, lift]
    cases h1 : BS.smartUnpack blob i with
    | throw e => simp [putAll, overwritten]; rfl
    | ub => simp [putAll, overwritten]; rfl
    | abort => simp [putAll, overwritten]; rfl
    | ok key =>
      simp only [Res.ok_bind]
      show answer _ (Mut.bind _ _ t).1 = _ ∧ (Mut.bind _ _ t).2 = _
      simp only [Mut.bind, lift]
      cases h2 : BS.smartUnpack blob key.2 with
      | throw e => simp [putAll, overwritten]; rfl
      | ub => simp [putAll, overwritten]; rfl
      | abort => simp [putAll, overwritten]; rfl
      | ok value =>
        simp only [Res.ok_bind, Container.deserializeElement]
        show answer _ (Mut.bind _ _ t).1 = _ ∧ (Mut.bind _ _ t).2 = _
        simp only [Mut.bind, lift]
        cases h3 : Container.readObj mk cd value.1 with
        | throw e => simp [putAll, overwritten]; rfl
        | ub => simp [putAll, overwritten]; rfl
        | abort => simp [putAll, overwritten]; rfl
        | ok o =>
          simp only [Res.ok_bind]
          cases o with
          | none =>
            show answer _ (Mut.bind _ _ t).1 = _ ∧ (Mut.bind _ _ t).2 = _
            simp only [Mut.bind, lift, Res.ok_bind, Option.toList_none, List.map_nil, List.nil_append]
            by_cases hlt : value.2 < blob.length
            · simp only [if_pos hlt]; exact ih _ _
            · simp only [if_neg hlt]; simp [putAll, overwritten]; exact ⟨rfl, rfl⟩
          | some o =>
            have ho := readObj_ne_null h3
            show answer _ (Mut.bind _ _ t).1 = _ ∧ (Mut.bind _ _ t).2 = _
            simp only [Mut.bind, ghost_set ho, set_stored ho, Res.ok_bind, Option.toList_some, List.map_cons, List.map_nil,
              List.cons_append, List.nil_append, overwritten]
            by_cases hlt : value.2 < blob.length
            · simp only [if_pos hlt]
              obtain ⟨e1, e2⟩ := ih value.2 (SMap.insert key.1 (stored o) t.1, t.2 ++ under t.1 key.1)
              refine ⟨e1, e2.trans ?_⟩
              simp [putAll, List.append_assoc]
            · simp only [if_neg hlt]; simp [putAll, overwritten]; exact ⟨rfl, rfl⟩

theorem load_ghost (mk : Mktime) (cd : Codec G1 G2 GT) (blob : Bytes) (t : Ghost G1 G2 GT) :
    answer (fun _ => .done) (load onGhost mk cd blob t).1 =
        answer (G1 := G1) (G2 := G2) (GT := GT) (fun _ => .done) (Container.deserialize mk cd t.1 blob) ∧
      (load onGhost mk cd blob t).2 =
        (putAll t.1 (entries mk cd blob (blob.length + 1) 0), t.2 ++ overwritten t.1 (entries mk cd blob (blob.length + 1) 0)) :=
  loadLoop_ghost mk cd blob _ _ t

/-! ## Several containers -/

/-- The pointers of a container, if it exists. -/
def ptrsO : Option Ptrs → List Nat
  | none => []
  | some d => ptrs d

/-- The containers on the heap and as values, and what has been left behind. -/
structure WRel (w : World G1 G2 GT) (v : Values G1 G2 GT) (L : List (Cell G1 G2 GT)) : Prop where
  val : w.conts.map (Option.map (view w.heap)) = v
  here : ∀ a ∈ w.conts.flatMap ptrsO, Here w.heap a
  nodup : (w.conts.flatMap ptrsO).Nodup
  sorted : ∀ d, some d ∈ w.conts → SMap.Sorted d
  live : w.heap.live.Perm (owned v ++ L)

theorem flatMap_set {α β : Type} (f : α → List β) (l : List α) {i : Nat} {x : α} (y : α) (h : l[i]? = some x) (hy : f y = []) :
    (l.flatMap f).Perm (f x ++ (l.set i y).flatMap f) := by
  induction l generalizing i with
  | nil => simp at h
  | cons z l ih =>
    cases i with
    | zero => simp at h; subst h; simp [hy]
    | succ i =>
      simp only [List.set_cons_succ, List.flatMap_cons]
      refine ((ih (by simpa using h)).append_left (f z)).trans ?_
      rw [← List.append_assoc, ← List.append_assoc]
      exact List.perm_append_comm.append_right _

theorem objs_view {h : Heap G1 G2 GT} : ∀ {d : Ptrs}, (∀ a ∈ ptrs d, Here h a) →
    objs (view h d) = (ptrs d).map fun a => .obj (objAt h (some a)) := by
  intro d
  induction d with
  | nil => intro _; rfl
  | cons e d ih =>
    obtain ⟨k, p⟩ := e
    intro hh
    cases p with
    | none => exact ih hh
    | some a =>
      have h1 := (load_here (hh a (by simp [ptrs]))).2
      have h2 := ih fun b hb => hh b (by simp only [ptrs, List.filterMap_cons, List.mem_cons]; exact .inr hb)
      have h3 : one (objAt h (some a)) = [.obj (objAt h (some a))] := by
        generalize objAt h (some a) = o at *
        cases o <;> first | rfl | exact absurd rfl h1
      simp only [objs, view, List.map_cons, List.flatMap_cons, h3] at h2 ⊢
      simp only [List.singleton_append, h2]
      simp [ptrs]

theorem owned_view {h : Heap G1 G2 GT} : ∀ {cs : List (Option Ptrs)}, (∀ a ∈ cs.flatMap ptrsO, Here h a) →
    owned (cs.map (Option.map (view h))) = (cs.flatMap ptrsO).map fun a => .obj (objAt h (some a)) := by
  intro cs
  induction cs with
  | nil => intro _; rfl
  | cons d cs ih =>
    intro hh
    have h2 := ih fun b hb => hh b (by simp only [List.flatMap_cons, List.mem_append]; exact .inr hb)
    cases d with
    | none => simpa [owned, ptrsO] using h2
    | some d =>
      have h3 := objs_view (h := h) (d := d) fun b hb => hh b (by simp only [List.flatMap_cons, List.mem_append]; exact .inl hb)
      simp only [owned, List.map_cons, List.flatMap_cons, Option.map_some, List.map_append, ptrsO] at h2 ⊢
      rw [h3, h2]

theorem join_some {α : Type} {l : List (Option α)} {i : Nat} {d : α} (h : (l[i]?).join = some d) : l[i]? = some (some d) := by
  cases h1 : l[i]? with
  | none => rw [h1] at h; cases h
  | some x => rw [h1] at h; simp at h; rw [h]

/-- The objects of the other containers. -/
def others (w : World G1 G2 GT) (i : Nat) : List (Nat × Obj G1 G2 GT) :=
  ((w.conts.set i none).flatMap ptrsO).map fun a => (a, objAt w.heap (some a))

theorem WRel.one {w : World G1 G2 GT} {v : Values G1 G2 GT} {L : List (Cell G1 G2 GT)} (r : WRel w v L) {i : Nat} {d : Ptrs}
    (hd : (w.conts[i]?).join = some d) : Rel (others w i) (w.heap, d) (view w.heap d, L) := by
  have hd' := join_some hd
  have hp := flatMap_set ptrsO w.conts (none : Option Ptrs) hd' rfl
  have hin : ∀ a, a ∈ ptrs d ∨ a ∈ (w.conts.set i none).flatMap ptrsO → a ∈ w.conts.flatMap ptrsO := fun a ha =>
    hp.mem_iff.mpr (List.mem_append.mpr ha)
  refine ⟨rfl, fun a ha => r.here a (hin a (.inl ha)), ?_, ?_, r.sorted d (List.mem_of_getElem? hd'), ?_⟩
  · intro e he
    obtain ⟨a, ha, rfl⟩ := List.mem_map.mp he
    obtain ⟨o, ho, hg⟩ := r.here a (hin a (.inr ha))
    simp only [objAt, hg]
  · have := hp.nodup_iff.mp r.nodup
    simpa [others, ptrsO, Function.comp_def] using this
  · refine r.live.trans (List.Perm.append_right _ ?_)
    rw [← r.val, owned_view r.here, objs_view fun a ha => r.here a (hin a (.inl ha))]
    refine (hp.map _).trans ?_
    rw [List.map_append]
    simp [others, ptrsO, Function.comp_def]

theorem WRel.back {w : World G1 G2 GT} {v : Values G1 G2 GT} {L L' : List (Cell G1 G2 GT)} (r : WRel w v L) {i : Nat} {d d' : Ptrs}
    {h' : Heap G1 G2 GT} {c' : Container G1 G2 GT} (hd : (w.conts[i]?).join = some d) (r' : Rel (others w i) (h', d') (c', L')) :
    WRel ⟨h', w.conts.set i (some d')⟩ (v.set i (some c')) L' := by
  have hd' := join_some hd
  have hi : i < w.conts.length := by
    by_contra hn
    rw [List.getElem?_eq_none (by omega)] at hd'; cases hd'
  have hget : (w.conts.set i (some d'))[i]? = some (some d') := by simp [hi]
  have hp := flatMap_set ptrsO (w.conts.set i (some d')) (none : Option Ptrs) hget rfl
  rw [List.set_set] at hp
  have hf : ∀ a ∈ (w.conts.set i none).flatMap ptrsO, h'.get a = some (.obj (objAt w.heap (some a))) := fun a ha =>
    r'.frame (a, objAt w.heap (some a)) (List.mem_map.mpr ⟨a, ha, rfl⟩)
  have hold := flatMap_set ptrsO w.conts (none : Option Ptrs) hd' rfl
  have hhere : ∀ a ∈ (w.conts.set i none).flatMap ptrsO, Here w.heap a := fun a ha =>
    r.here a (hold.mem_iff.mpr (List.mem_append_right _ ha))
  have hsame : ∀ a ∈ (w.conts.set i none).flatMap ptrsO, h'.get a = w.heap.get a := by
    intro a ha
    obtain ⟨o, _, hg⟩ := hhere a ha
    rw [hf a ha, hg]; simp only [objAt, hg]
  have hall : ∀ a ∈ (w.conts.set i (some d')).flatMap ptrsO, Here h' a := by
    intro a ha
    rcases List.mem_append.mp (hp.mem_iff.mp ha) with h | h
    · exact r'.here a h
    · obtain ⟨o, ho, hg⟩ := hhere a h
      exact ⟨o, ho, by rw [hsame a h]; exact hg⟩
  have hval : (w.conts.set i (some d')).map (Option.map (view h')) = v.set i (some c') := by
    have e1 : (w.conts.set i none).map (Option.map (view h')) = (w.conts.set i none).map (Option.map (view w.heap)) := by
      apply List.map_congr_left
      intro x hx
      cases x with
      | none => rfl
      | some x =>
        simp only [Option.map_some, Option.some.injEq]
        exact view_congr fun a ha => hsame a (List.mem_flatMap.mpr ⟨some x, hx, ha⟩)
    have e2 : ∀ h : Heap G1 G2 GT, (w.conts.set i (some d')).map (Option.map (view h)) =
        ((w.conts.set i none).map (Option.map (view h))).set i (some (view h d')) := by
      intro h
      rw [List.map_set, List.map_set, List.set_set]; rfl
    rw [e2 h', e1, List.map_set, r.val, List.set_set]
    have := r'.val
    simp only at this
    rw [this]
  refine ⟨hval, hall, ?_, ?_, ?_⟩
  · refine hp.nodup_iff.mpr ?_
    have := r'.nodup
    simpa [others, ptrsO, Function.comp_def] using this
  · intro x hx
    rcases List.mem_or_eq_of_mem_set hx with h | h
    · exact r.sorted x h
    · cases h; exact r'.sorted
  · refine r'.live.trans (List.Perm.append_right _ ?_)
    rw [← hval]
    show List.Perm _ (owned _)
    rw [owned_view hall]
    refine List.Perm.trans ?_ (hp.map _).symm
    rw [List.map_append]
    have e3 : (ptrsO (some d')).map (fun a => Cell.obj (objAt h' (some a))) = objs c' := by
      have := r'.val
      simp only at this
      rw [← this, objs_view r'.here]; rfl
    rw [e3]
    refine List.Perm.append_left _ (List.Perm.of_eq ?_)
    simp only [others, List.map_map, Function.comp_def]
    apply List.map_congr_left
    intro a ha
    simp only [objAt, hf a ha]

theorem WRel.none {w : World G1 G2 GT} {v : Values G1 G2 GT} {L : List (Cell G1 G2 GT)} (r : WRel w v L) {i : Nat} 
    (hd : (w.conts[i]?).join = some []) : WRel ⟨w.heap, w.conts.set i none⟩ (v.set i none) L := by
  have hd' := join_some hd
  have hp := flatMap_set ptrsO w.conts (Option.none : Option Ptrs) hd' rfl
  simp only [ptrsO, ptrs, List.filterMap_nil, List.nil_append] at hp
  have hall : ∀ a ∈ (w.conts.set i Option.none).flatMap ptrsO, Here w.heap a := fun a ha => r.here a (hp.mem_iff.mpr ha)
  have hval : (w.conts.set i Option.none).map (Option.map (view w.heap)) = v.set i Option.none := by
    rw [List.map_set, r.val]; rfl
  refine ⟨hval, hall, hp.nodup_iff.mp r.nodup, ?_, ?_⟩
  · intro x hx
    rcases List.mem_or_eq_of_mem_set hx with h | h
    · exact r.sorted x h
    · cases h
  · refine r.live.trans (List.Perm.append_right _ ?_)
    rw [← hval, ← r.val, owned_view hall, owned_view r.here]
    exact hp.map _

theorem at_eq {w : World G1 G2 GT} {v : Values G1 G2 GT} {L : List (Cell G1 G2 GT)} (r : WRel w v L) (i : Nat) :
    at_ v i = ((w.conts[i]?).join).map (view w.heap) := by
  unfold at_
  rw [← r.val, List.getElem?_map]
  cases w.conts[i]? <;> rfl

theorem WRel.append {w : World G1 G2 GT} {v : Values G1 G2 GT} {L : List (Cell G1 G2 GT)} (r : WRel w v L) :
    WRel ⟨w.heap, w.conts ++ [some []]⟩ (v ++ [some []]) L := by
  have e : (w.conts ++ [some []]).flatMap ptrsO = w.conts.flatMap ptrsO := by simp [ptrsO, ptrs]
  refine ⟨?_, ?_, ?_, ?_, ?_⟩
  · simp only [List.map_append, r.val]; rfl
  · simp only [e]; exact r.here
  · simp only [e]; exact r.nodup
  · intro d hd
    rcases List.mem_append.mp hd with h | h
    · exact r.sorted d h
    · simp at h; subst h; exact SMap.sorted_nil
  · have : owned (v ++ [some []]) = owned v := by simp [owned, objs]
    rw [this]; exact r.live

theorem set_self {α : Type} {l : List (Option α)} {i : Nat} {c : α} (h : (l[i]?).join = some c) : l.set i (some c) = l := by
  have := join_some h
  apply List.ext_getElem?
  intro j
  rw [List.getElem?_set]
  split
  · rename_i hij
    subst hij
    rw [this]
    split
    · rfl
    · rename_i hn; rw [List.getElem?_eq_none (by omega)] at this; cases this
  · rfl

/-- One call does the same on the heap and on values. -/
theorem step_sim (mk : Mktime) (cd : Codec G1 G2 GT) {w : World G1 G2 GT} {v : Values G1 G2 GT} {L : List (Cell G1 G2 GT)}
    (r : WRel w v L) (c : Call G1 G2 GT) :
    (w.step mk cd c).1 = (step mk cd v c).1 ∧ WRel (w.step mk cd c).2 (step mk cd v c).2 (L ++ lost mk cd v c) := by
  have hat := at_eq r
  cases c with
  | create => 
    simp only [World.step, step, lost, List.append_nil]
    exact ⟨trivial, r.append⟩
  | set i n o =>
    simp only [World.step, World.on, step, lost, hat i]
    cases hd : (w.conts[i]?).join with
    | none => simp only [Option.map_none, List.append_nil]; exact ⟨trivial, r⟩
    | some d =>
      simp only [Option.map_some]
      by_cases ho : o = .null
      · subst ho
        simp only [setComponent, Obj.clone, answer, Container.setComponent, Res.ub_bind, List.append_nil]
        rw [set_self hd]
        exact ⟨trivial, r⟩
      · obtain ⟨e1, e2⟩ := sim_set n o _ _ (r.one hd)
        rw [ghost_set ho] at e1 e2
        rw [set_stored ho]
        have hl : (match some (view w.heap d), o with
            | some _, .null => []
            | some c, _ => under c n
            | _, _ => []) = under (view w.heap d) n := by
          cases o <;> first | exact absurd rfl ho | rfl
        have := r.back hd e2
        simp only [onHeap] at e1 this
        rw [e1]
        cases o <;> first | exact absurd rfl ho | exact ⟨rfl, this⟩
  | get i n =>
    simp only [World.step, World.on, step, lost, hat i, List.append_nil]
    cases hd : (w.conts[i]?).join with
    | none => simp only [Option.map_none]; exact ⟨trivial, r⟩
    | some d =>
      obtain ⟨e1, e2⟩ := rel_get (r.one hd) n
      simp only [Option.map_some]
      rw [e1]
      exact ⟨rfl, r.back hd e2⟩
  | delete i n =>
    simp only [World.step, World.on, step, lost, hat i]
    cases hd : (w.conts[i]?).join with
    | none => simp only [Option.map_none, List.append_nil]; exact ⟨trivial, r⟩
    | some d =>
      obtain ⟨e1, e2⟩ := rel_delete (r.one hd) n
      simp only [Option.map_some]
      rw [e1]
      exact ⟨rfl, r.back hd e2⟩
  | write i =>
    simp only [World.step, World.on, step, lost, hat i]
    cases hd : (w.conts[i]?).join with
    | none => simp only [Option.map_none, List.append_nil]; exact ⟨trivial, r⟩
    | some d =>
      obtain ⟨e1, e2⟩ := rel_serialize cd (r.one hd)
      simp only [Option.map_some]
      rw [e1]
      have := r.back hd e2
      have hv : (v[i]?).join = some (view w.heap d) := by
        have := hat i; rw [hd] at this; exact this
      rw [set_self hv] at this
      exact ⟨rfl, this⟩
  | read i b =>
    simp only [World.step, World.on, step, lost, hat i]
    cases hd : (w.conts[i]?).join with
    | none => simp only [Option.map_none, List.append_nil]; exact ⟨trivial, r⟩
    | some d =>
      obtain ⟨e1, e2⟩ := sim_load mk cd b _ _ (r.one hd)
      obtain ⟨g1, g2⟩ := load_ghost mk cd b (view w.heap d, L)
      rw [g2] at e2
      simp only [Option.map_some]
      rw [e1]
      exact ⟨g1, r.back hd e2⟩
  | destroy i =>
    simp only [World.step, World.on, step, lost, hat i, List.append_nil]
    cases hd : (w.conts[i]?).join with
    | none => simp only [Option.map_none]; exact ⟨trivial, r⟩
    | some d =>
      obtain ⟨e1, e2⟩ := rel_destroy (r.one hd)
      simp only [Option.map_some]
      rw [e1]
      have hd0 : (destroy (w.heap, d)).2.2 = [] := by
        unfold destroy
        obtain ⟨h', e, _⟩ := rel_destroyLoop d w.heap _ (r.one hd)
        simp only [e]
      have hb := r.back (d' := (destroy (w.heap, d)).2.2) (h' := (destroy (w.heap, d)).2.1) hd e2
      rw [hd0] at hb
      have hi : i < w.conts.length := by
        by_contra hn
        rw [List.getElem?_eq_none (by omega)] at hd; cases hd
      have := hb.none (i := i) (by simp [hi])
      simp only [List.set_set] at this
      simp only [answer, List.set_set]
      exact ⟨trivial, this⟩

/-- Histories do the same on the heap and on values. -/
theorem world_run_sim (mk : Mktime) (cd : Codec G1 G2 GT) : ∀ (cs : List (Call G1 G2 GT)) (w : World G1 G2 GT) (v : Values G1 G2 GT)
    (L : List (Cell G1 G2 GT)), WRel w v L →
    (w.run mk cd cs).1 = (history mk cd v cs).1 ∧
      WRel (w.run mk cd cs).2 (history mk cd v cs).2.1 (L ++ (history mk cd v cs).2.2)
  | [], w, v, L, r => by simp only [World.run, history, List.append_nil]; exact ⟨trivial, r⟩
  | c :: cs, w, v, L, r => by
    obtain ⟨e1, e2⟩ := step_sim mk cd r c
    simp only [World.run, history]
    rcases hs : w.step mk cd c with ⟨a, w'⟩
    rw [hs] at e1 e2
    simp only at e1 e2
    rw [← e1]
    obtain ⟨i1, i2⟩ := world_run_sim mk cd cs w' _ _ e2
    cases a with
    | ok a => simp only; rw [i1]; exact ⟨rfl, by rw [← List.append_assoc]; exact i2⟩
    | throw e => simp only; rw [i1]; exact ⟨rfl, by rw [← List.append_assoc]; exact i2⟩
    | ub => exact ⟨rfl, e2⟩
    | abort => exact ⟨rfl, e2⟩

theorem wrel_empty : WRel ({} : World G1 G2 GT) [] [] := by
  refine ⟨rfl, ?_, ?_, ?_, ?_⟩
  · intro a ha; simp at ha
  · simp
  · intro d hd; simp at hd
  · simp [Heap.live, owned]

end Mem
end Abe
