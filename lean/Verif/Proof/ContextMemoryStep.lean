import Verif.Proof.ContextMemoryLeaks
/-! One call of a context: on values with what is left behind, and as in Model/SchemeObjects. -/
set_option linter.unusedSimpArgs false
set_option linter.unusedSectionVars false
set_option autoImplicit false
namespace Abe
namespace Cm
open Live (Mut lift asZP asG1 asG2 asGT asBytes Two mapRes)
open Scheme
open Mem (Store Cell Heap Ptrs SimR Agree WRel Values at_ Ghost stored under overwritten putAll)
variable {G1 G2 GT : Type}

/-! ## The containers that an operation uses -/

theorem within_at {α : Type} {i : Nat} {m : Mut (Ghost G1 G2 GT) α} {t : Book G1 G2 GT} {c : Container G1 G2 GT}
    (h : at_ t.1 i = some c) : within i m t = ((m (c, t.2)).1, t.1.set i (some (m (c, t.2)).2.1), (m (c, t.2)).2.2) := by
  unfold within; rw [h]

/-- `i` and `j` are read, `k` is filled. -/
structure On3 (v0 : Values G1 G2 GT) (i j k : Nat) (t : Book G1 G2 GT) (u : Desk G1 G2 GT) : Prop where
  one : at_ t.1 i = some u.1.1
  two : at_ t.1 j = some u.1.2
  out : at_ t.1 k = some u.2.1
  rest : ∀ x, x ≠ i → x ≠ j → x ≠ k → at_ t.1 x = at_ v0 x
  lost : t.2 = u.2.2

section On3
variable {v0 : Values G1 G2 GT} {i j k : Nat}

theorem on3_get1 (cd : Codec G1 G2 GT) (hij : i ≠ j) (hik : i ≠ k) (n : Bytes) :
    SimR (On3 v0 i j k) ((onBook cd).get i n) (get1 n) := by
  rintro ⟨v, L⟩ u r
  have hl := at_lt r.one
  show (within i _ _).1 = _ ∧ On3 v0 i j k (within i _ _).2 _
  rw [within_at r.one]
  refine ⟨rfl, ?_, ?_, ?_, ?_, r.lost⟩
  · simp only [at_set, hl, and_self, if_true]; rfl
  · simp only [at_set, if_neg (fun e : j = i ∧ _ => hij e.1.symm)]; exact r.two
  · simp only [at_set, if_neg (fun e : k = i ∧ _ => hik e.1.symm)]; exact r.out
  · intro x h1 h2 h3
    simp only [at_set, if_neg (fun e : x = i ∧ _ => h1 e.1)]; exact r.rest x h1 h2 h3

theorem on3_get2 (cd : Codec G1 G2 GT) (hij : i ≠ j) (hjk : j ≠ k) (n : Bytes) :
    SimR (On3 v0 i j k) ((onBook cd).get j n) (get2 n) := by
  rintro ⟨v, L⟩ u r
  have hl := at_lt r.two
  show (within j _ _).1 = _ ∧ On3 v0 i j k (within j _ _).2 _
  rw [within_at r.two]
  refine ⟨rfl, ?_, ?_, ?_, ?_, r.lost⟩
  · simp only [at_set, if_neg (fun e : i = j ∧ _ => hij e.1)]; exact r.one
  · simp only [at_set, hl, and_self, if_true]; rfl
  · simp only [at_set, if_neg (fun e : k = j ∧ _ => hjk e.1.symm)]; exact r.out
  · intro x h1 h2 h3
    simp only [at_set, if_neg (fun e : x = j ∧ _ => h2 e.1)]; exact r.rest x h1 h2 h3

theorem on3_fill (cd : Codec G1 G2 GT) (hik : i ≠ k) (hjk : j ≠ k) :
    Agree (On3 v0 i j k) ((onBook cd).store k) fill where
  set n o := by
    rintro ⟨v, L⟩ u r
    have hl := at_lt r.out
    have hL : L = u.2.2 := r.lost
    show (within k _ _).1 = _ ∧ On3 v0 i j k (within k _ _).2 _
    rw [within_at r.out]
    refine ⟨by simp only [hL]; rfl, ?_, ?_, ?_, ?_, by simp only [hL]; rfl⟩
    · simp only [at_set, if_neg (fun e : i = k ∧ _ => hik e.1)]; exact r.one
    · simp only [at_set, if_neg (fun e : j = k ∧ _ => hjk e.1)]; exact r.two
    · simp only [at_set, hl, and_self, if_true, hL]; rfl
    · intro x h1 h2 h3
      simp only [at_set, if_neg (fun e : x = k ∧ _ => h3 e.1)]; exact r.rest x h1 h2 h3
  buf b := by
    rintro ⟨v, L⟩ u r
    have hL : L = u.2.2 := r.lost
    exact ⟨rfl, r.one, r.two, r.out, r.rest, by show L ++ _ = _; rw [hL]; rfl⟩

end On3

/-- `i` is read, `k` is filled. -/
structure On2 (v0 : Values G1 G2 GT) (i k : Nat) (t : Book G1 G2 GT) (u : Desk G1 G2 GT) : Prop where
  one : at_ t.1 i = some u.1.1
  out : at_ t.1 k = some u.2.1
  rest : ∀ x, x ≠ i → x ≠ k → at_ t.1 x = at_ v0 x
  lost : t.2 = u.2.2

section On2
variable {v0 : Values G1 G2 GT} {i k : Nat}

theorem on2_get1 (cd : Codec G1 G2 GT) (hik : i ≠ k) (n : Bytes) : SimR (On2 v0 i k) ((onBook cd).get i n) (get1 n) := by
  rintro ⟨v, L⟩ u r
  have hl := at_lt r.one
  show (within i _ _).1 = _ ∧ On2 v0 i k (within i _ _).2 _
  rw [within_at r.one]
  refine ⟨rfl, ?_, ?_, ?_, r.lost⟩
  · simp only [at_set, hl, and_self, if_true]; rfl
  · simp only [at_set, if_neg (fun e : k = i ∧ _ => hik e.1.symm)]; exact r.out
  · intro x h1 h3
    simp only [at_set, if_neg (fun e : x = i ∧ _ => h1 e.1)]; exact r.rest x h1 h3

theorem on2_fill (cd : Codec G1 G2 GT) (hik : i ≠ k) : Agree (On2 v0 i k) ((onBook cd).store k) fill where
  set n o := by
    rintro ⟨v, L⟩ u r
    have hl := at_lt r.out
    have hL : L = u.2.2 := r.lost
    show (within k _ _).1 = _ ∧ On2 v0 i k (within k _ _).2 _
    rw [within_at r.out]
    refine ⟨by simp only [hL]; rfl, ?_, ?_, ?_, by simp only [hL]; rfl⟩
    · simp only [at_set, if_neg (fun e : i = k ∧ _ => hik e.1)]; exact r.one
    · simp only [at_set, hl, and_self, if_true, hL]; rfl
    · intro x h1 h3
      simp only [at_set, if_neg (fun e : x = k ∧ _ => h3 e.1)]; exact r.rest x h1 h3
  buf b := by
    rintro ⟨v, L⟩ u r
    have hL : L = u.2.2 := r.lost
    exact ⟨rfl, r.one, r.out, r.rest, by show L ++ _ = _; rw [hL]; rfl⟩

end On2

/-- `i` and `j` are read. -/
structure OnD (v0 : Values G1 G2 GT) (i j : Nat) (t : Book G1 G2 GT) (u : Desk G1 G2 GT) : Prop where
  one : at_ t.1 i = some u.1.1
  two : at_ t.1 j = some u.1.2
  rest : ∀ x, x ≠ i → x ≠ j → at_ t.1 x = at_ v0 x
  lost : t.2 = u.2.2

section OnD
variable {v0 : Values G1 G2 GT} {i j : Nat}

theorem onD_get1 (cd : Codec G1 G2 GT) (hij : i ≠ j) (n : Bytes) : SimR (OnD v0 i j) ((onBook cd).get i n) (get1 n) := by
  rintro ⟨v, L⟩ u r
  have hl := at_lt r.one
  show (within i _ _).1 = _ ∧ OnD v0 i j (within i _ _).2 _
  rw [within_at r.one]
  refine ⟨rfl, ?_, ?_, ?_, r.lost⟩
  · simp only [at_set, hl, and_self, if_true]; rfl
  · simp only [at_set, if_neg (fun e : j = i ∧ _ => hij e.1.symm)]; exact r.two
  · intro x h1 h2
    simp only [at_set, if_neg (fun e : x = i ∧ _ => h1 e.1)]; exact r.rest x h1 h2

theorem onD_get2 (cd : Codec G1 G2 GT) (hij : i ≠ j) (n : Bytes) : SimR (OnD v0 i j) ((onBook cd).get j n) (get2 n) := by
  rintro ⟨v, L⟩ u r
  have hl := at_lt r.two
  show (within j _ _).1 = _ ∧ OnD v0 i j (within j _ _).2 _
  rw [within_at r.two]
  refine ⟨rfl, ?_, ?_, ?_, r.lost⟩
  · simp only [at_set, if_neg (fun e : i = j ∧ _ => hij e.1)]; exact r.one
  · simp only [at_set, hl, and_self, if_true]; rfl
  · intro x h1 h2
    simp only [at_set, if_neg (fun e : x = j ∧ _ => h2 e.1)]; exact r.rest x h1 h2

theorem onD_buf (cd : Codec G1 G2 GT) (k : Nat) (b : Bytes) : SimR (OnD v0 i j) (((onBook cd).store k).buf b) (fill.buf b) := by
  rintro ⟨v, L⟩ u r
  have hL : L = u.2.2 := r.lost
  exact ⟨rfl, r.one, r.two, r.rest, by show L ++ _ = _; rw [hL]; rfl⟩

end OnD

/-- `k` is filled. -/
structure OnK (v0 : Values G1 G2 GT) (k : Nat) (t : Book G1 G2 GT) (u : Ghost G1 G2 GT) : Prop where
  out : at_ t.1 k = some u.1
  rest : ∀ x, x ≠ k → at_ t.1 x = at_ v0 x
  lost : t.2 = u.2

theorem onK_fill (cd : Codec G1 G2 GT) {v0 : Values G1 G2 GT} {k : Nat} : Agree (OnK v0 k) ((onBook cd).store k) Mem.onGhost where
  set n o := by
    rintro ⟨v, L⟩ u r
    have hl := at_lt r.out
    have hL : L = u.2 := r.lost
    show (within k _ _).1 = _ ∧ OnK v0 k (within k _ _).2 _
    rw [within_at r.out]
    refine ⟨by simp only [hL], ?_, ?_, by simp only [hL]⟩
    · simp only [at_set, hl, and_self, if_true, hL]
    · intro x h3
      simp only [at_set, if_neg (fun e : x = k ∧ _ => h3 e.1)]; exact r.rest x h3
  buf b := by
    rintro ⟨v, L⟩ u r
    have hL : L = u.2 := r.lost
    exact ⟨rfl, r.out, r.rest, by show L ++ _ = _; rw [hL]; rfl⟩

/-- `i` and `j` are filled. -/
structure OnP (v0 : Values G1 G2 GT) (i j : Nat) (t : Book G1 G2 GT) (u : Two G1 G2 GT × List (Cell G1 G2 GT)) : Prop where
  one : at_ t.1 i = some u.1.1
  two : at_ t.1 j = some u.1.2
  rest : ∀ x, x ≠ i → x ≠ j → at_ t.1 x = at_ v0 x
  lost : t.2 = u.2

/-- Filling the first. -/
def fill1 : Store G1 G2 GT (Two G1 G2 GT × List (Cell G1 G2 GT)) where
  set n o := fun u => ((Mem.onGhost.set n o (u.1.1, u.2)).1, ((Mem.onGhost.set n o (u.1.1, u.2)).2.1, u.1.2),
    (Mem.onGhost.set n o (u.1.1, u.2)).2.2)
  buf b := fun u => (.ok (), u.1, u.2 ++ [.buf b])

/-- Filling the second. -/
def fill2 : Store G1 G2 GT (Two G1 G2 GT × List (Cell G1 G2 GT)) where
  set n o := fun u => ((Mem.onGhost.set n o (u.1.2, u.2)).1, (u.1.1, (Mem.onGhost.set n o (u.1.2, u.2)).2.1),
    (Mem.onGhost.set n o (u.1.2, u.2)).2.2)
  buf b := fun u => (.ok (), u.1, u.2 ++ [.buf b])

section OnP
variable {v0 : Values G1 G2 GT} {i j : Nat}

theorem onP_fill1 (cd : Codec G1 G2 GT) (hij : i ≠ j) : Agree (OnP v0 i j) ((onBook cd).store i) fill1 where
  set n o := by
    rintro ⟨v, L⟩ u r
    have hl := at_lt r.one
    have hL : L = u.2 := r.lost
    show (within i _ _).1 = _ ∧ OnP v0 i j (within i _ _).2 _
    rw [within_at r.one]
    refine ⟨by simp only [hL]; rfl, ?_, ?_, ?_, by simp only [hL]; rfl⟩
    · simp only [at_set, hl, and_self, if_true, hL]; rfl
    · simp only [at_set, if_neg (fun e : j = i ∧ _ => hij e.1.symm)]; exact r.two
    · intro x h1 h2
      simp only [at_set, if_neg (fun e : x = i ∧ _ => h1 e.1)]; exact r.rest x h1 h2
  buf b := by
    rintro ⟨v, L⟩ u r
    have hL : L = u.2 := r.lost
    exact ⟨rfl, r.one, r.two, r.rest, by show L ++ _ = _; rw [hL]; rfl⟩

theorem onP_fill2 (cd : Codec G1 G2 GT) (hij : i ≠ j) : Agree (OnP v0 i j) ((onBook cd).store j) fill2 where
  set n o := by
    rintro ⟨v, L⟩ u r
    have hl := at_lt r.two
    have hL : L = u.2 := r.lost
    show (within j _ _).1 = _ ∧ OnP v0 i j (within j _ _).2 _
    rw [within_at r.two]
    refine ⟨by simp only [hL]; rfl, ?_, ?_, ?_, by simp only [hL]; rfl⟩
    · simp only [at_set, if_neg (fun e : i = j ∧ _ => hij e.1)]; exact r.one
    · simp only [at_set, hl, and_self, if_true, hL]; rfl
    · intro x h1 h2
      simp only [at_set, if_neg (fun e : x = j ∧ _ => h2 e.1)]; exact r.rest x h1 h2
  buf b := by
    rintro ⟨v, L⟩ u r
    have hL : L = u.2 := r.lost
    exact ⟨rfl, r.one, r.two, r.rest, by show L ++ _ = _; rw [hL]; rfl⟩

theorem fill1_set {n : Bytes} {o : Obj G1 G2 GT} (ho : o ≠ .null) (u : Two G1 G2 GT × List (Cell G1 G2 GT)) :
    fill1.set n o u = (.ok (), (SMap.insert n (stored o) u.1.1, u.1.2), u.2 ++ under u.1.1 n) := by
  simp only [fill1, Mem.ghost_set ho]

theorem fill2_set {n : Bytes} {o : Obj G1 G2 GT} (ho : o ≠ .null) (u : Two G1 G2 GT × List (Cell G1 G2 GT)) :
    fill2.set n o u = (.ok (), (u.1.1, SMap.insert n (stored o) u.1.2), u.2 ++ under u.1.2 n) := by
  simp only [fill2, Mem.ghost_set ho]

end OnP

section Params
variable {q : Nat} [Fact q.Prime]
variable [AddCommGroup G1] [Module (ZMod q) G1] [AddCommGroup G2] [Module (ZMod q) G2] [AddCommGroup GT]
  [Module (ZMod q) GT]

theorem params_run (env : Env G1 G2 GT) (sch : Scheme) (r : ParamRand q G1 G2) (L : List (Cell G1 G2 GT)) :
    ∃ p m : Container G1 G2 GT, (match sch with | .cp => Scheme.cpParams env r | .kp => Scheme.kpParams env r) = .ok (p, m) ∧
      (match sch with | .cp => cpParams fill1 fill2 env r | .kp => kpParams fill1 fill2 env r) (([], []), L) = (.ok (), (p, m), L) := by
  cases sch with
  | cp =>
    refine ⟨_, _, rfl, ?_⟩
    simp only [cpParams, mut_bind, Mut.bind, fill1_set (n1 _), fill1_set (n2 _), fill1_set (nT _), fill1_set (nB _), fill2_set (nZ _),
      fill2_set (n2 _)]
    have e : ∀ a : List (Cell G1 G2 GT), L ++ [] ++ [] ++ [] ++ [] ++ [] ++ [] ++ [] = L := by simp
    exact congrArg₂ Prod.mk rfl (congrArg₂ Prod.mk rfl (e []))
  | kp =>
    refine ⟨_, _, rfl, ?_⟩
    simp only [kpParams, mut_bind, Mut.bind, fill1_set (n1 _), fill1_set (n2 _), fill1_set (nT _), fill1_set (nB _), fill2_set (nZ _),
      fill2_set (n2 _)]
    have e : ∀ a : List (Cell G1 G2 GT), L ++ [] ++ [] ++ [] ++ [] ++ [] = L := by simp
    exact congrArg₂ Prod.mk rfl (congrArg₂ Prod.mk rfl (e []))

end Params

/-! ## Values -/

section Values
variable {n : Nat} {l : List Nat} {v v' : Values G1 G2 GT} {w : Held G1 G2 GT}

/-- The key behind a pointer. -/
def keyOf (f : Nat → Container G1 G2 GT) (k : HKey G1 G2 GT) : Key G1 G2 GT := { k.hdr with comps := f k.cont }

theorem mapKeys_congr {f g : Nat → Container G1 G2 GT} {ks : KeyStore (HKey G1 G2 GT)} (h : ∀ i ∈ owners ks, f i = g i) :
    mapKeys (keyOf f) ks = mapKeys (keyOf g) ks := by
  have key : ∀ m : SMap (Option (HKey G1 G2 GT)), (∀ i ∈ keyConts m, f i = g i) →
      (m.map fun e => (e.1, e.2.map (keyOf f))) = m.map fun e => (e.1, e.2.map (keyOf g)) := by
    intro m hm
    apply List.map_congr_left
    rintro ⟨id, o⟩ ho
    cases o with
    | none => rfl
    | some k =>
      have := hm k.cont (mem_keyConts.mpr ⟨id, k, ho, rfl⟩)
      simp only [Option.map_some, keyOf, this]
  unfold mapKeys
  rw [key ks.pub fun i hi => h i (List.mem_append_left _ hi), key ks.sec fun i hi => h i (List.mem_append_right _ hi)]

/-- The ciphertexts as values. -/
def ctsOf (f : Nat → Container G1 G2 GT) (cts : Nat → Option (Ciphertext G1 G2 GT × Nat)) (j : Nat) : Ciphertext G1 G2 GT :=
  match cts j with
  | none => {}
  | some x => { x.1 with comps := f x.2 }

theorem asValues_eq (f : Nat → Container G1 G2 GT) (w : Held G1 G2 GT) : asValues f w =
    ⟨{ alg := w.alg, ready := w.ready, ks := mapKeys (keyOf f) w.ks }, ctsOf f w.cts⟩ := rfl

/-- The containers of ciphertexts. -/
def ctConts (n : Nat) (cts : Nat → Option (Ciphertext G1 G2 GT × Nat)) : List Nat :=
  (List.range n).filterMap fun j => (cts j).map (·.2)

theorem held_eq (n : Nat) (w : Held G1 G2 GT) : held n w = owners w.ks ++ ctConts n w.cts := rfl

theorem mem_ctConts {n : Nat} {cts : Nat → Option (Ciphertext G1 G2 GT × Nat)} {i : Nat} :
    i ∈ ctConts n cts ↔ ∃ j < n, ∃ x, cts j = some (x, i) := by
  unfold ctConts
  simp only [List.mem_filterMap, List.mem_range, Option.map_eq_some_iff]
  constructor
  · rintro ⟨j, hj, ⟨x, i'⟩, h, rfl⟩; exact ⟨j, hj, x, h⟩
  · rintro ⟨j, hj, x, h⟩; exact ⟨j, hj, (x, i), h, rfl⟩

theorem ctsOf_congr {f g : Nat → Container G1 G2 GT} {cts : Nat → Option (Ciphertext G1 G2 GT × Nat)} (ht : ∀ j, n ≤ j → cts j = none)
    (h : ∀ i ∈ ctConts n cts, f i = g i) : ctsOf f cts = ctsOf g cts := by
  funext j
  unfold ctsOf
  cases e : cts j with
  | none => rfl
  | some x =>
    have hj : j < n := by
      by_contra hn
      rw [ht j (by omega)] at e; cases e
    simp only [h x.2 (mem_ctConts.mpr ⟨j, hj, x.1, e⟩)]

theorem asValues_congr {f g : Nat → Container G1 G2 GT} (ht : ∀ j, n ≤ j → w.cts j = none) (h : ∀ i ∈ held n w, f i = g i) :
    asValues f w = asValues g w := by
  rw [asValues_eq, asValues_eq, mapKeys_congr fun i hi => h i (List.mem_append_left _ hi),
    ctsOf_congr ht fun i hi => h i (List.mem_append_right _ hi)]

/-- The keys of a map as values. -/
def valMap (f : Nat → Container G1 G2 GT) (m : SMap (Option (HKey G1 G2 GT))) : SMap (Option (Key G1 G2 GT)) :=
  m.map fun e => (e.1, e.2.map (keyOf f))

theorem valMap_congr {f g : Nat → Container G1 G2 GT} {m : SMap (Option (HKey G1 G2 GT))} (h : ∀ i ∈ keyConts m, f i = g i) :
    valMap f m = valMap g m := by
  apply List.map_congr_left
  rintro ⟨a, o⟩ hm
  cases o with
  | none => rfl
  | some k2 => simp only [Option.map_some, keyOf, h _ (mem_keyConts.mpr ⟨a, k2, hm, rfl⟩)]

theorem conts_inj {id id2 : Bytes} {k k2 : HKey G1 G2 GT} (hne : id2 ≠ id) (ec : k2.cont = k.cont) :
    ∀ m : SMap (Option (HKey G1 G2 GT)), (keyConts m).Nodup → (id, some k) ∈ m → (id2, some k2) ∈ m → False := by
  intro m
  induction m with
  | nil => intro _ h; simp at h
  | cons x m ih =>
    intro hd h3 h4
    obtain ⟨a, o⟩ := x
    rw [conts_cons] at hd
    rcases List.mem_cons.mp h3 with e3 | e3 <;> rcases List.mem_cons.mp h4 with e4 | e4
    · rw [← e3] at e4; exact hne (Prod.mk.inj e4).1
    · obtain ⟨rfl, rfl⟩ := Prod.mk.inj e3
      exact (List.nodup_append.mp hd).2.2 k.cont (by simp [contOf]) k2.cont (mem_keyConts.mpr ⟨id2, k2, e4, rfl⟩) ec.symm
    · obtain ⟨rfl, rfl⟩ := Prod.mk.inj e4
      exact (List.nodup_append.mp hd).2.2 k2.cont (by simp [contOf]) k.cont (mem_keyConts.mpr ⟨id, k, e3, rfl⟩) ec
    · exact ih (List.nodup_append.mp hd).2.1 e3 e4

theorem pointer_find {m : SMap (Option (HKey G1 G2 GT))} {id : Bytes} {k : HKey G1 G2 GT} (hp : pointer id m = some k) :
    SMap.find id m = some (some k) := by
  unfold pointer at hp
  cases e : SMap.find id m with
  | none => rw [e] at hp; cases hp
  | some o => rw [e] at hp; simp only [Option.join_some] at hp; rw [hp]

/-- One container of a key has changed. -/
theorem valMap_set {f g : Nat → Container G1 G2 GT} {m : SMap (Option (HKey G1 G2 GT))} {id : Bytes} {k : HKey G1 G2 GT}
    (ho : SMap.Sorted m) (hn : (keyConts m).Nodup) (hp : pointer id m = some k) (h : ∀ i ∈ keyConts m, i ≠ k.cont → f i = g i) :
    SMap.insert id (some (keyOf g k)) (valMap f m) = valMap g m := by
  have hf := pointer_find hp
  refine SMap.ext (SMap.sorted_insert (Mem.sorted_mapVal (Option.map (keyOf f)) ho)) (Mem.sorted_mapVal (Option.map (keyOf g)) ho) fun id2 => ?_
  unfold valMap
  rw [SMap.find_insert, Mem.find_mapVal, Mem.find_mapVal]
  split
  · rename_i e; subst e; rw [hf]; rfl
  · rename_i hne
    cases e : SMap.find id2 m with
    | none => rfl
    | some o =>
      cases o with
      | none => rfl
      | some k2 =>
        have hc : k2.cont ≠ k.cont := fun ec => conts_inj hne ec m hn (SMap.mem_of_find hf) (SMap.mem_of_find e)
        simp only [Option.map_some, keyOf, h _ (mem_keyConts.mpr ⟨id2, k2, SMap.mem_of_find e, rfl⟩) hc]

/-- One container of a public key has changed. -/
theorem setPub_map {f g : Nat → Container G1 G2 GT} {ks : KeyStore (HKey G1 G2 GT)} {id : Bytes} {k : HKey G1 G2 GT}
    (ho : Ordered ks) (hn : (owners ks).Nodup) (hp : pointer id ks.pub = some k) (h : ∀ i ∈ owners ks, i ≠ k.cont → f i = g i) :
    Live.setPub (mapKeys (keyOf f) ks) id (g k.cont) = mapKeys (keyOf g) ks := by
  have hd := List.nodup_append.mp hn
  have h1 := valMap_set ho.1 hd.1 hp fun i hi => h i (List.mem_append_left _ hi)
  have h2 : valMap f ks.sec = valMap g ks.sec := valMap_congr fun i hi => h i (List.mem_append_right _ hi)
    (fun e => hd.2.2 _ (pointer_mem hp) _ hi e.symm)
  unfold Live.setPub
  simp only [mapKeys, Mem.find_mapVal, pointer_find hp, Option.map_some]
  exact congrArg₂ KeyStore.mk h1 h2

/-- One container of a secret key has changed. -/
theorem setSec_map {f g : Nat → Container G1 G2 GT} {ks : KeyStore (HKey G1 G2 GT)} {id : Bytes} {k : HKey G1 G2 GT}
    (ho : Ordered ks) (hn : (owners ks).Nodup) (hp : pointer id ks.sec = some k) (h : ∀ i ∈ owners ks, i ≠ k.cont → f i = g i) :
    Live.setSec (mapKeys (keyOf f) ks) id (g k.cont) = mapKeys (keyOf g) ks := by
  have hd := List.nodup_append.mp hn
  have h1 := valMap_set ho.2 hd.2.1 hp fun i hi => h i (List.mem_append_right _ hi)
  have h2 : valMap f ks.pub = valMap g ks.pub := valMap_congr fun i hi => h i (List.mem_append_left _ hi)
    (fun e => hd.2.2 _ hi _ (pointer_mem hp) e)
  unfold Live.setSec
  simp only [mapKeys, Mem.find_mapVal, pointer_find hp, Option.map_some]
  exact congrArg₂ KeyStore.mk h2 h1

end Values
end Cm
end Abe
