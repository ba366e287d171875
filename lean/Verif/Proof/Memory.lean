import Verif.Spec.Memory
import Verif.Proof.Maps
/-! Pointers and values: the relation that every operation on containers keeps. -/
set_option linter.unusedSimpArgs false
set_option linter.unusedSectionVars false
set_option autoImplicit false
namespace Abe
namespace Mem
open Live (Mut lift)
variable {G1 G2 GT : Type}

/-! ## Maps -/

theorem find_mapVal {α β : Type} (f : α → β) (k : Bytes) (m : SMap α) :
    SMap.find k (m.map fun e => (e.1, f e.2)) = (SMap.find k m).map f := by
  induction m with
  | nil => rfl
  | cons e m ih =>
    obtain ⟨k', v⟩ := e
    simp only [List.map_cons, SMap.find]
    split
    · rfl
    · exact ih

theorem insert_mapVal {α β : Type} (f : α → β) (k : Bytes) (v : α) (m : SMap α) :
    ((SMap.insert k v m).map fun e => (e.1, f e.2)) = SMap.insert k (f v) (m.map fun e => (e.1, f e.2)) := by
  induction m with
  | nil => rfl
  | cons e m ih =>
    obtain ⟨k', v'⟩ := e
    simp only [List.map_cons, SMap.insert]
    split
    · rfl
    · split
      · rfl
      · simp only [List.map_cons, ih]

theorem erase_mapVal {α β : Type} (f : α → β) (k : Bytes) (m : SMap α) :
    ((SMap.erase k m).map fun e => (e.1, f e.2)) = SMap.erase k (m.map fun e => (e.1, f e.2)) := by
  unfold SMap.erase
  induction m with
  | nil => rfl
  | cons e m ih =>
    obtain ⟨k', v'⟩ := e
    simp only [List.map_cons, List.filter_cons]
    split <;> simp [ih]

theorem sorted_mapVal {α β : Type} (f : α → β) {m : SMap α} (h : SMap.Sorted m) :
    SMap.Sorted (m.map fun e => (e.1, f e.2)) := by
  induction m with
  | nil => trivial
  | cons e m ih =>
    obtain ⟨k', v'⟩ := e
    refine ⟨?_, ih h.2⟩
    intro p hp
    obtain ⟨x, hx, rfl⟩ := List.mem_map.mp hp
    exact h.1 x hx

/-- Inserting in a map either adds an entry or replaces one. -/
theorem insert_cases {α : Type} {m : SMap α} (hs : SMap.Sorted m) (k : Bytes) (v : α) :
    (SMap.find k m = none ∧ (SMap.insert k v m).Perm ((k, v) :: m)) ∨
      ∃ w m', SMap.find k m = some w ∧ m.Perm ((k, w) :: m') ∧ (SMap.insert k v m).Perm ((k, v) :: m') := by
  induction m with
  | nil => left; exact ⟨rfl, .refl _⟩
  | cons e m ih =>
    obtain ⟨k', v'⟩ := e
    simp only [SMap.insert, SMap.find]
    by_cases hlt : blt k k' = true
    · left
      rw [if_pos hlt, if_neg (blt_ne hlt)]
      exact ⟨SMap.find_eq_none_of_lt fun p hp => blt_trans hlt (hs.1 p hp), .refl _⟩
    · rw [if_neg hlt]
      by_cases he : k = k'
      · right
        rw [if_pos he, if_pos he]
        subst he
        exact ⟨v', m, rfl, .refl _, .refl _⟩
      · rw [if_neg he, if_neg he]
        rcases ih hs.2 with ⟨h1, h2⟩ | ⟨w, m', h1, h2, h3⟩
        · left
          exact ⟨h1, (h2.cons _).trans (List.Perm.swap _ _ _)⟩
        · right
          exact ⟨w, (k', v') :: m', h1, (h2.cons _).trans (List.Perm.swap _ _ _), (h3.cons _).trans (List.Perm.swap _ _ _)⟩

/-- Erasing from a map either does nothing or removes one entry. -/
theorem erase_cases {α : Type} {m : SMap α} (hs : SMap.Sorted m) (k : Bytes) :
    (SMap.find k m = none ∧ SMap.erase k m = m) ∨
      ∃ w, SMap.find k m = some w ∧ m.Perm ((k, w) :: SMap.erase k m) := by
  induction m with
  | nil => left; exact ⟨rfl, rfl⟩
  | cons e m ih =>
    obtain ⟨k', v'⟩ := e
    by_cases he : k = k'
    · subst he
      right
      refine ⟨v', by simp [SMap.find], ?_⟩
      have : SMap.erase k ((k, v') :: m) = m := by
        unfold SMap.erase
        rw [List.filter_cons]
        simp only [bne_self_eq_false, Bool.false_eq_true, if_false]
        apply List.filter_eq_self.mpr
        intro p hp
        have := blt_ne (hs.1 p hp)
        simpa using fun e => this e.symm
      rw [this]
    · have hne : (k' != k) = true := by simpa using fun e => he e.symm
      have h1 : SMap.erase k ((k', v') :: m) = (k', v') :: SMap.erase k m := by
        unfold SMap.erase; rw [List.filter_cons, if_pos hne]
      rw [h1]
      simp only [SMap.find, if_neg he]
      rcases ih hs.2 with ⟨h2, h3⟩ | ⟨w, h2, h3⟩
      · left; exact ⟨h2, by rw [h3]⟩
      · right; exact ⟨w, h2, (h3.cons _).trans (List.Perm.swap _ _ _)⟩

/-! ## Objects of a container -/

theorem objs_perm {c c' : Container G1 G2 GT} (h : c.Perm c') : (objs c).Perm (objs c') := by
  unfold objs; exact h.flatMap_right _

theorem objs_insert {c : Container G1 G2 GT} (hs : SMap.Sorted c) (n : Bytes) (o : Obj G1 G2 GT) :
    (objs (SMap.insert n o c) ++ under c n).Perm (objs c ++ one o) := by
  rcases insert_cases hs n o with ⟨h1, h2⟩ | ⟨w, m', h1, h2, h3⟩
  · unfold under; rw [h1]
    refine (List.append_nil _).symm ▸ (objs_perm h2).trans ?_
    simp only [objs, List.flatMap_cons]
    exact List.perm_append_comm
  · unfold under; rw [h1]
    refine (List.Perm.append_right _ (objs_perm h3)).trans ?_
    refine List.Perm.trans ?_ (List.Perm.append_right _ (objs_perm h2).symm)
    simp only [objs, List.flatMap_cons]
    exact (List.perm_append_comm (l₁ := one o ++ List.flatMap (fun e => one e.2) m')).trans
      ((List.perm_append_comm (l₁ := one o)).append_left _ |>.trans (by simp))

theorem objs_erase {c : Container G1 G2 GT} (hs : SMap.Sorted c) (n : Bytes) :
    (objs (SMap.erase n c) ++ under c n).Perm (objs c) := by
  rcases erase_cases hs n with ⟨h1, h2⟩ | ⟨w, h1, h2⟩
  · unfold under; rw [h1, h2]; simp
  · unfold under; rw [h1]
    refine List.Perm.trans ?_ (objs_perm h2).symm
    simp only [objs, List.flatMap_cons]
    exact List.perm_append_comm

/-! ## The heap -/

theorem get_alloc (h : Heap G1 G2 GT) (x : Cell G1 G2 GT) (a : Nat) (ha : a < h.cells.length) :
    (h.alloc x).2.get a = h.get a := by
  simp only [Heap.alloc, Heap.get, List.getElem?_append_left ha]

theorem get_alloc_new (h : Heap G1 G2 GT) (x : Cell G1 G2 GT) : (h.alloc x).2.get (h.alloc x).1 = some x := by
  simp [Heap.alloc, Heap.get]

theorem live_alloc (h : Heap G1 G2 GT) (x : Cell G1 G2 GT) : (h.alloc x).2.live = h.live ++ [x] := by
  simp [Heap.alloc, Heap.live]

theorem lt_of_get {h : Heap G1 G2 GT} {a : Nat} {x : Cell G1 G2 GT} (hx : h.get a = some x) : a < h.cells.length := by
  unfold Heap.get at hx
  by_contra hn
  rw [List.getElem?_eq_none (by omega)] at hx
  cases hx

theorem get_set_ne (h : Heap G1 G2 GT) {a b : Nat} (hab : a ≠ b) : (⟨h.cells.set a none⟩ : Heap G1 G2 GT).get b = h.get b := by
  simp only [Heap.get, List.getElem?_set_ne hab]

theorem live_set_aux {α : Type} : ∀ (l : List (Option α)) (a : Nat) (x : α), (l[a]?).join = some x →
    (l.filterMap id).Perm (x :: (l.set a none).filterMap id)
  | [], a, x, h => by simp at h
  | y :: l, 0, x, h => by
    simp at h; subst h; simp
  | y :: l, a + 1, x, h => by
    have ih := live_set_aux l a x (by simpa using h)
    cases y with
    | none => simpa using ih
    | some y =>
      simp only [List.set_cons_succ, List.filterMap_cons, id]
      exact (ih.cons y).trans (List.Perm.swap _ _ _)

theorem live_set {h : Heap G1 G2 GT} {a : Nat} {x : Cell G1 G2 GT} (hx : h.get a = some x) :
    h.live.Perm (x :: (⟨h.cells.set a none⟩ : Heap G1 G2 GT).live) := live_set_aux _ _ _ hx

/-! ## The relation -/

variable {F : List (Nat × Obj G1 G2 GT)}

theorem Rel.sortedVal {s : State G1 G2 GT} {t : Ghost G1 G2 GT} (r : Rel F s t) : SMap.Sorted t.1 := by
  rw [← r.val]; exact sorted_mapVal _ r.sorted

theorem Here.lt {h : Heap G1 G2 GT} {a : Nat} (x : Here h a) : a < h.cells.length := by
  obtain ⟨_, _, e⟩ := x; exact lt_of_get e

theorem view_congr {h h' : Heap G1 G2 GT} {d : Ptrs} (e : ∀ a ∈ ptrs d, h'.get a = h.get a) : view h' d = view h d := by
  unfold view
  apply List.map_congr_left
  rintro ⟨k, p⟩ hm
  cases p with
  | none => rfl
  | some a =>
    have : a ∈ ptrs d := List.mem_filterMap.mpr ⟨(k, some a), hm, rfl⟩
    simp only [objAt, e a this]

/-- Two computations do the same. -/
def Sim {α : Type} (F : List (Nat × Obj G1 G2 GT)) (m : Mut (State G1 G2 GT) α) (n : Mut (Ghost G1 G2 GT) α) : Prop :=
  ∀ s t, Rel F s t → (m s).1 = (n t).1 ∧ Rel F (m s).2 (n t).2

theorem Sim.lift {α : Type} (r : Res α) : Sim F (lift r) (Live.lift r) := fun _ _ h => ⟨rfl, h⟩

theorem Sim.bind {α β : Type} {m : Mut (State G1 G2 GT) α} {n : Mut (Ghost G1 G2 GT) α} {f : α → Mut (State G1 G2 GT) β}
    {g : α → Mut (Ghost G1 G2 GT) β} (h : Sim F m n) (h' : ∀ a, Sim F (f a) (g a)) : Sim F (m >>= f) (n >>= g) := by
  intro s t hr
  obtain ⟨e, hr'⟩ := h s t hr
  show (Mut.bind m f s).1 = (Mut.bind n g t).1 ∧ Rel F (Mut.bind m f s).2 (Mut.bind n g t).2
  unfold Mut.bind
  rcases hm : m s with ⟨a, s'⟩
  rcases hn : n t with ⟨b, t'⟩
  rw [hm, hn] at e hr'
  simp only at e hr'
  subst e
  cases a with
  | ok a => exact h' a s' t' hr'
  | throw e => exact ⟨rfl, hr'⟩
  | ub => exact ⟨rfl, hr'⟩
  | abort => exact ⟨rfl, hr'⟩

/-- On values, counting what is left behind. -/
def onGhost : Store G1 G2 GT (Ghost G1 G2 GT) where
  set name o := fun t =>
    match o with
    | .null => (.ub, t)
    | o => (.ok (), SMap.insert name (stored o) t.1, t.2 ++ under t.1 name)
  buf b := fun t => (.ok (), t.1, t.2 ++ [.buf b])

theorem mem_ptrs_insert {d : Ptrs} {n : Bytes} {p : Option Nat} {a : Nat} (h : a ∈ ptrs (SMap.insert n p d)) :
    p = some a ∨ a ∈ ptrs d := by
  obtain ⟨e, he, hp⟩ := List.mem_filterMap.mp h
  rcases SMap.mem_insert' he with h | h
  · subst h; exact .inl hp
  · exact .inr (List.mem_filterMap.mpr ⟨e, h, hp⟩)

theorem nodup_insert_none {d : Ptrs} (hs : SMap.Sorted d) {n : Bytes} {l : List Nat} (h : (ptrs d ++ l).Nodup) :
    (ptrs (SMap.insert n none d) ++ l).Nodup := by
  rcases insert_cases hs n none with ⟨_, h2⟩ | ⟨w, m', _, h2, h3⟩
  · have : (ptrs (SMap.insert n none d)).Perm (ptrs d) := by
      have := h2.filterMap (·.2)
      simpa [ptrs] using this
    exact (this.append_right l).nodup_iff.mpr h
  · have e1 : (ptrs (SMap.insert n none d)).Perm (ptrs m') := by
      have := h3.filterMap (·.2)
      simpa [ptrs] using this
    have e2 := h2.filterMap (·.2)
    refine (e1.append_right l).nodup_iff.mpr ?_
    have h4 := ((e2.append_right l).nodup_iff).mp h
    cases w with
    | none => simpa [ptrs] using h4
    | some a =>
      simp only [List.filterMap_cons, List.cons_append, List.nodup_cons] at h4
      exact h4.2

theorem nodup_insert_some {d : Ptrs} (hs : SMap.Sorted d) {n : Bytes} {l : List Nat} {b : Nat} (hb : b ∉ ptrs d ++ l)
    (h : (ptrs d ++ l).Nodup) : (ptrs (SMap.insert n (some b) d) ++ l).Nodup := by
  rcases insert_cases hs n (some b) with ⟨_, h2⟩ | ⟨w, m', _, h2, h3⟩
  · have : (ptrs (SMap.insert n (some b) d)).Perm (b :: ptrs d) := by
      have := h2.filterMap (·.2)
      simpa [ptrs] using this
    refine (this.append_right l).nodup_iff.mpr ?_
    simp only [List.cons_append, List.nodup_cons]
    exact ⟨hb, h⟩
  · have e1 : (ptrs (SMap.insert n (some b) d)).Perm (b :: ptrs m') := by
      have := h3.filterMap (·.2)
      simpa [ptrs] using this
    have e2 := h2.filterMap (·.2)
    refine (e1.append_right l).nodup_iff.mpr ?_
    have h4 := ((e2.append_right l).nodup_iff).mp h
    have h5 : ∀ x ∈ ptrs m', x ∈ ptrs d := fun x hx => e2.mem_iff.mpr (by
      cases w with
      | none => simpa [ptrs] using hx
      | some a => simp only [List.filterMap_cons, List.mem_cons]; exact .inr hx)
    simp only [List.cons_append, List.nodup_cons]
    refine ⟨fun hm => hb ?_, ?_⟩
    · rcases List.mem_append.mp hm with hm | hm
      · exact List.mem_append_left _ (h5 _ hm)
      · exact List.mem_append_right _ hm
    · cases w with
      | none => simpa [ptrs] using h4
      | some a =>
        simp only [List.filterMap_cons, List.cons_append, List.nodup_cons] at h4
        exact h4.2

theorem perm_fit {α : Type} {A B o u F L : List α} (h : (A ++ u).Perm (B ++ o)) :
    ((B ++ F ++ L) ++ o).Perm (A ++ F ++ (L ++ u)) := by
  have e1 : ((B ++ F ++ L) ++ o).Perm ((B ++ o) ++ (F ++ L)) := by
    simp only [List.append_assoc]
    refine List.Perm.append_left _ ?_
    rw [← List.append_assoc]
    exact List.perm_append_comm
  have e2 : (A ++ F ++ (L ++ u)).Perm ((A ++ u) ++ (F ++ L)) := by
    simp only [List.append_assoc]
    refine List.Perm.append_left _ ?_
    rw [← List.append_assoc]
    exact List.perm_append_comm
  exact e1.trans ((h.symm.append_right _).trans e2.symm)

/-- A null pointer is stored. -/
theorem rel_insert_none {s : State G1 G2 GT} {t : Ghost G1 G2 GT} (r : Rel F s t) (n : Bytes) :
    Rel F (s.1, SMap.insert n none s.2) (SMap.insert n .null t.1, t.2 ++ under t.1 n) := by
  refine ⟨?_, ?_, r.frame, nodup_insert_none r.sorted r.nodup, SMap.sorted_insert r.sorted, ?_⟩
  · simp only [view, insert_mapVal]
    rw [← r.val]; rfl
  · intro a ha
    rcases mem_ptrs_insert ha with h | h
    · cases h
    · exact r.here a h
  · refine r.live.trans ?_
    have := perm_fit (F := F.map fun e => Cell.obj e.2) (L := t.2) (objs_insert r.sortedVal n (.null : Obj G1 G2 GT))
    simpa [one] using this

/-- A new object is stored. -/
theorem rel_insert_new {s : State G1 G2 GT} {t : Ghost G1 G2 GT} (r : Rel F s t) (n : Bytes) {o : Obj G1 G2 GT} (ho : o ≠ .null) :
    Rel F ((s.1.alloc (.obj o)).2, SMap.insert n (some (s.1.alloc (.obj o)).1) s.2)
      (SMap.insert n o t.1, t.2 ++ under t.1 n) := by
  have hold : ∀ a ∈ ptrs s.2, (s.1.alloc (.obj o)).2.get a = s.1.get a := fun a ha => get_alloc _ _ _ (r.here a ha).lt
  have hfr : ∀ e ∈ F, e.1 < s.1.cells.length := fun e he => lt_of_get (r.frame e he)
  refine ⟨?_, ?_, ?_, ?_, SMap.sorted_insert r.sorted, ?_⟩
  · have e1 : view (s.1.alloc (.obj o)).2 s.2 = t.1 := by rw [view_congr hold, r.val]
    simp only [view, insert_mapVal]
    unfold view at e1
    rw [e1]
    simp only [objAt, get_alloc_new]
  · intro a ha
    rcases mem_ptrs_insert ha with h | h
    · cases h; exact ⟨o, ho, get_alloc_new _ _⟩
    · obtain ⟨x, hx, e⟩ := r.here a h
      exact ⟨x, hx, by rw [hold a h]; exact e⟩
  · intro e he
    show (s.1.alloc (.obj o)).2.get e.1 = _
    rw [get_alloc _ _ _ (hfr e he)]; exact r.frame e he
  · refine nodup_insert_some r.sorted ?_ r.nodup
    intro hm
    rcases List.mem_append.mp hm with hm | hm
    · exact absurd (r.here _ hm).lt (by simp [Heap.alloc])
    · obtain ⟨e, he, h2⟩ := List.mem_map.mp hm
      exact absurd (hfr e he) (by simp [h2, Heap.alloc])
  · show (s.1.alloc (.obj o)).2.live.Perm _
    rw [live_alloc]
    refine (r.live.append_right _).trans ?_
    have := perm_fit (F := F.map fun e => Cell.obj e.2) (L := t.2) (objs_insert r.sortedVal n o)
    have h1 : one o = [.obj o] := by cases o <;> first | rfl | exact absurd rfl ho
    rw [h1] at this
    exact this

/-- A buffer is allocated. -/
theorem rel_buf {s : State G1 G2 GT} {t : Ghost G1 G2 GT} (r : Rel F s t) (b : Bytes) :
    Rel F ((s.1.alloc (.buf b)).2, s.2) (t.1, t.2 ++ [.buf b]) := by
  have hold : ∀ a ∈ ptrs s.2, (s.1.alloc (.buf b)).2.get a = s.1.get a := fun a ha => get_alloc _ _ _ (r.here a ha).lt
  refine ⟨?_, ?_, ?_, r.nodup, r.sorted, ?_⟩
  · show view _ s.2 = t.1
    rw [view_congr hold, r.val]
  · intro a ha
    obtain ⟨x, hx, e⟩ := r.here a ha
    exact ⟨x, hx, by show (s.1.alloc (.buf b)).2.get a = _; rw [hold a ha]; exact e⟩
  · intro e he
    show (s.1.alloc (.buf b)).2.get e.1 = _
    rw [get_alloc _ _ _ (lt_of_get (r.frame e he))]; exact r.frame e he
  · show (s.1.alloc (.buf b)).2.live.Perm _
    rw [live_alloc, ← List.append_assoc]
    exact r.live.append_right _

theorem sim_set (n : Bytes) (o : Obj G1 G2 GT) : Sim F (onHeap.set n o) (onGhost.set n o) := by
  intro s t r
  cases o with
  | null => exact ⟨rfl, r⟩
  | policy p => exact ⟨rfl, rel_insert_none r n⟩
  | _ => exact ⟨rfl, rel_insert_new r n (by simp)⟩

theorem sim_buf (b : Bytes) : Sim F (onHeap.buf b : Mut (State G1 G2 GT) Unit) (onGhost.buf b) :=
  fun _ _ r => ⟨rfl, rel_buf r b⟩

/-! ## The other calls -/

theorem load_here {h : Heap G1 G2 GT} {a : Nat} (x : Here h a) : h.load (some a) = .ok (objAt h (some a)) ∧ objAt h (some a) ≠ .null := by
  obtain ⟨o, ho, e⟩ := x
  simp only [Heap.load, objAt, e]
  exact ⟨trivial, ho⟩

theorem mem_ptrs {d : Ptrs} {n : Bytes} {a : Nat} (h : SMap.find n d = some (some a)) : a ∈ ptrs d :=
  List.mem_filterMap.mpr ⟨_, SMap.mem_of_find h, rfl⟩

theorem rel_get {s : State G1 G2 GT} {t : Ghost G1 G2 GT} (r : Rel F s t) (n : Bytes) :
    (getComponent n s).1 = (Container.getComponent t.1 n).1 ∧
      Rel F (getComponent n s).2 ((Container.getComponent t.1 n).2, t.2) := by
  have hf : SMap.find n t.1 = (SMap.find n s.2).map (objAt s.1) := by rw [← r.val]; exact find_mapVal _ _ _
  unfold getComponent Container.getComponent
  rcases hd : SMap.find n s.2 with _ | _ | a
  · rw [hd] at hf
    simp only [Option.map_none] at hf
    have := rel_insert_none r n
    rw [hf]
    simp only [under, hf, List.append_nil] at this
    exact ⟨rfl, this⟩
  · rw [hd] at hf
    simp only [Option.map_some, objAt] at hf
    rw [hf]
    exact ⟨rfl, r⟩
  · rw [hd] at hf
    simp only [Option.map_some] at hf
    obtain ⟨h1, h2⟩ := load_here (r.here a (mem_ptrs hd))
    rw [hf]
    simp only [h1]
    generalize objAt s.1 (some a) = o at *
    cases o <;> first | exact absurd rfl h2 | exact ⟨trivial, r⟩

theorem rel_delete {s : State G1 G2 GT} {t : Ghost G1 G2 GT} (r : Rel F s t) (n : Bytes) :
    (deleteComponent n s).1 = .ok (Container.deleteComponent t.1 n).1 ∧
      Rel F (deleteComponent n s).2 ((Container.deleteComponent t.1 n).2, t.2 ++ under t.1 n) := by
  have hf : SMap.find n t.1 = (SMap.find n s.2).map (objAt s.1) := by rw [← r.val]; exact find_mapVal _ _ _
  unfold deleteComponent Container.deleteComponent
  rw [hf, Option.isSome_map]
  by_cases hd : (SMap.find n s.2).isSome = true
  · rw [if_pos hd, if_pos hd]
    refine ⟨rfl, ?_, ?_, r.frame, ?_, SMap.sorted_erase r.sorted, ?_⟩
    · simp only [view, erase_mapVal]; rw [← r.val]; rfl
    · intro a ha
      obtain ⟨e, he, hp⟩ := List.mem_filterMap.mp ha
      exact r.here a (List.mem_filterMap.mpr ⟨e, (List.mem_filter.mp he).1, hp⟩)
    · refine r.nodup.sublist (List.Sublist.append_right ?_ _)
      exact List.Sublist.filterMap _ List.filter_sublist
    · refine r.live.trans ?_
      have := perm_fit (F := F.map fun e => Cell.obj e.2) (L := t.2) (o := [])
        (by simpa using objs_erase r.sortedVal n)
      simpa using this
  · rw [if_neg hd, if_neg hd]
    have h0 : SMap.find n s.2 = none := by simpa using hd
    refine ⟨rfl, ?_⟩
    simp only [under, hf, h0, Option.map_none, List.append_nil]
    exact r

theorem rel_destroyLoop : ∀ (d : Ptrs) (h : Heap G1 G2 GT) (t : Ghost G1 G2 GT), Rel F (h, d) t →
    ∃ h', destroyLoop h d = .ok h' ∧ Rel F (h', []) ([], t.2) := by
  intro d
  induction d with
  | nil =>
    intro h t r
    refine ⟨h, rfl, ?_⟩
    have := r.val
    have e : t.1 = [] := by rw [← this]; rfl
    rw [← e]; exact r
  | cons e d ih =>
    obtain ⟨k, p⟩ := e
    intro h t r
    obtain ⟨c, L⟩ := t
    have hv := r.val
    simp only [view, List.map_cons] at hv
    cases p with
    | none =>
      refine ih h (view h d, L) ⟨rfl, r.here, r.frame, r.nodup, r.sorted.2, ?_⟩
      have hl := r.live
      simp only at hl hv
      rw [← hv] at hl
      simpa [objs, objAt, one, view] using hl
    | some a =>
      obtain ⟨o, ho, hg⟩ := r.here a (by simp [ptrs])
      have hn := r.nodup
      have hp : ptrs ((k, some a) :: d) = a :: ptrs d := by simp [ptrs]
      simp only [hp, List.cons_append, List.nodup_cons] at hn
      have hne : ∀ b ∈ ptrs d ++ F.map (·.1), a ≠ b := fun b hb e => hn.1 (e ▸ hb)
      have hfree : h.free a = .ok ⟨h.cells.set a none⟩ := by
        simp only at hg
        simp only [Heap.free, hg]
      have hview : view ⟨h.cells.set a none⟩ d = view h d :=
        view_congr fun b hb => get_set_ne h (hne b (List.mem_append_left _ hb))
      simp only [destroyLoop, hfree, Res.ok_bind]
      refine ih _ (view h d, L) ⟨hview, ?_, ?_, hn.2, r.sorted.2, ?_⟩
      · intro b hb
        obtain ⟨x, hx, e⟩ := r.here b (by rw [hp]; exact List.mem_cons_of_mem _ hb)
        exact ⟨x, hx, by
          show (⟨h.cells.set a none⟩ : Heap G1 G2 GT).get b = _
          rw [get_set_ne h (hne b (List.mem_append_left _ hb))]; exact e⟩
      · intro e he
        show (⟨h.cells.set a none⟩ : Heap G1 G2 GT).get e.1 = _
        rw [get_set_ne h (hne _ (List.mem_append_right _ (List.mem_map.mpr ⟨e, he, rfl⟩)))]
        exact r.frame e he
      · have hl := r.live
        simp only at hl hv hg
        rw [← hv] at hl
        have h1 : one o = [.obj o] := by cases o <;> first | rfl | exact absurd rfl ho
        simp only [objs, List.flatMap_cons, objAt, hg, h1, List.cons_append, List.nil_append] at hl
        exact List.Perm.cons_inv ((live_set hg).symm.trans hl)

theorem rel_destroy {s : State G1 G2 GT} {t : Ghost G1 G2 GT} (r : Rel F s t) :
    (destroy s).1 = .ok () ∧ Rel F (destroy s).2 ([], t.2) := by
  obtain ⟨h', e, r'⟩ := rel_destroyLoop s.2 s.1 t r
  unfold destroy
  rw [e]
  exact ⟨rfl, r'⟩

theorem written_eq (cd : Codec G1 G2 GT) (k : Bytes) (o : Obj G1 G2 GT) (ho : o ≠ .null) (c : Container G1 G2 GT) :
    buffers cd ((k, o) :: c) = (written cd o).toList.map .buf ++ buffers cd c := by
  cases o <;> first | exact absurd rfl ho | rfl

theorem serialize_ok_of (cd : Codec G1 G2 GT) {o : Obj G1 G2 GT} (ho : o ≠ .null) : ∃ b, o.serialize cd = .ok b := by
  cases o <;> first | exact absurd rfl ho | exact ⟨_, rfl⟩

theorem rel_serializeLoop (cd : Codec G1 G2 GT) (d : Ptrs) (c : Container G1 G2 GT) : ∀ (d2 : Ptrs) (h : Heap G1 G2 GT) (L : List (Cell G1 G2 GT))
    (acc : Bytes), Rel F (h, d) (c, L) → (∀ e ∈ d2, e ∈ d) →
    (serializeLoop cd h acc d2).1 = (Container.serialize cd (view h d2) >>= fun b => .ok (acc ++ b)) ∧
      Rel F ((serializeLoop cd h acc d2).2, d) (c, L ++ buffers cd (view h d2)) := by
  intro d2
  induction d2 with
  | nil => intro h L acc r _; simp only [serializeLoop, view, List.map_nil, Container.serialize, Res.ok_bind, List.append_nil, buffers]; exact ⟨trivial, r⟩
  | cons e d2 ih =>
    obtain ⟨k, p⟩ := e
    intro h L acc r hm
    cases p with
    | none =>
      simp only [serializeLoop, Heap.load, view, List.map_cons, objAt, Container.serialize, Obj.serialize, Res.ub_bind, buffers,
        List.append_nil]
      exact ⟨trivial, r⟩
    | some a =>
      have hin : a ∈ ptrs d := List.mem_filterMap.mpr ⟨(k, some a), hm _ List.mem_cons_self, rfl⟩
      obtain ⟨h1, h2⟩ := load_here (r.here a hin)
      simp only [serializeLoop, h1, writeObj]
      obtain ⟨b, hb⟩ := serialize_ok_of cd h2
      have hv : view h ((k, some a) :: d2) = (k, objAt h (some a)) :: view h d2 := rfl
      rw [hv, written_eq cd k _ h2]
      simp only [hb, Container.serialize, Res.ok_bind]
      have hd2 : ∀ x ∈ ptrs d2, x ∈ ptrs d := by
        intro x hx
        obtain ⟨e, he, hp⟩ := List.mem_filterMap.mp hx
        exact List.mem_filterMap.mpr ⟨e, hm e (List.mem_cons_of_mem _ he), hp⟩
      cases hw : written cd (objAt h (some a)) with
      | none =>
        obtain ⟨e1, e2⟩ := ih h L (acc ++ BS.smartPack (BS.smartPack [] k) b) r fun e he => hm e (List.mem_cons_of_mem _ he)
        refine ⟨e1.trans ?_, by simpa using e2⟩
        cases Container.serialize cd (view h d2) <;> simp [List.append_assoc]
      | some y =>
        have r' := rel_buf r y
        obtain ⟨e1, e2⟩ := ih _ _ (acc ++ BS.smartPack (BS.smartPack [] k) b) r' fun e he => hm e (List.mem_cons_of_mem _ he)
        have hvv : view (h.alloc (.buf y)).2 d2 = view h d2 := view_congr fun x hx => get_alloc _ _ _ (r.here x (hd2 x hx)).lt
        simp only [hvv] at e1 e2
        refine ⟨e1.trans ?_, by simpa using e2⟩
        cases Container.serialize cd (view h d2) <;> simp [List.append_assoc]

theorem rel_serialize (cd : Codec G1 G2 GT) {s : State G1 G2 GT} {t : Ghost G1 G2 GT} (r : Rel F s t) :
    (serialize cd s).1 = Container.serialize cd t.1 ∧ Rel F (serialize cd s).2 (t.1, t.2 ++ buffers cd t.1) := by
  obtain ⟨e1, e2⟩ := rel_serializeLoop cd s.2 t.1 s.2 s.1 t.2 [] r fun _ h => h
  rw [r.val] at e1 e2
  refine ⟨e1.trans ?_, e2⟩
  cases Container.serialize cd t.1 <;> simp

/-! ## Filling -/

section Fill
open Scheme

theorem sim_loadLoop (mk : Mktime) (cd : Codec G1 G2 GT) (blob : Bytes) : ∀ (f i : Nat),
    Sim F (loadLoop onHeap mk cd blob f i) (loadLoop onGhost mk cd blob f i)
  | 0, _ => Sim.lift _
  | f + 1, i => by
    simp only [loadLoop]
    refine (Sim.lift _).bind fun key => (Sim.lift _).bind fun value => (Sim.lift _).bind fun o => ?_
    have hk : Sim F (if value.2 < blob.length then loadLoop onHeap mk cd blob f value.2 else lift (.ok ()))
        (if value.2 < blob.length then loadLoop onGhost mk cd blob f value.2 else lift (.ok ())) := by
      split
      · exact sim_loadLoop mk cd blob f _
      · exact Sim.lift _
    cases o with
    | none => exact (Sim.lift _).bind fun _ => hk
    | some o => exact (sim_set _ _).bind fun _ => hk

theorem sim_load (mk : Mktime) (cd : Codec G1 G2 GT) (blob : Bytes) : Sim F (load onHeap mk cd blob) (load onGhost mk cd blob) :=
  sim_loadLoop mk cd blob _ _

end Fill

end Mem
end Abe
