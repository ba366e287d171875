import Verif.Model.ParserHeap
import Verif.Proof.ParserInv
/-!
# The parser's memory: lemmas

Every word that may be read or released owns its objects, all other words own nothing; what the words own, what the policy
owns and what has been lost is everything that exists.
-/
set_option linter.unusedSimpArgs false
set_option linter.unusedSectionVars false
set_option autoImplicit false
namespace Abe
namespace PH

/-! ### The heap -/

theorem get_lt {h : Heap} {a : Nat} {o : Obj} (e : h.get a = some o) : a < h.cells.length := by
  unfold Heap.get at e
  by_cases hl : a < h.cells.length
  · exact hl
  · rw [List.getElem?_eq_none (by omega)] at e; simp at e

theorem get_new (h : Heap) : h.get h.cells.length = none := by
  unfold Heap.get; simp

theorem get_alloc (h : Heap) (o : Obj) (a : Nat) :
    (h.alloc o).2.get a = if a = h.cells.length then some o else h.get a := by
  unfold Heap.get Heap.alloc
  by_cases e : a = h.cells.length
  · subst e; simp
  · rw [if_neg e]
    by_cases hl : a < h.cells.length
    · simp [List.getElem?_append_left hl]
    · rw [List.getElem?_append_right (by omega)]
      rw [List.getElem?_eq_none (by simp; omega), List.getElem?_eq_none (by omega)]

theorem get_put {h : Heap} {a : Nat} {o : Obj} (e : h.get a = some o) (x : Option Obj) (b : Nat) :
    (h.put a x).get b = if b = a then x else h.get b := by
  have hl := get_lt e
  unfold Heap.get Heap.put
  by_cases hb : b = a
  · subst hb; simp [hl]
  · rw [if_neg hb]; simp [List.getElem?_set_ne (Ne.symm hb)]

theorem len_put (h : Heap) (a : Nat) (x : Option Obj) : (h.put a x).cells.length = h.cells.length := by
  simp [Heap.put]

theorem mem_live (h : Heap) (a : Nat) : a ∈ h.live ↔ (h.get a).isSome := by
  unfold Heap.live
  simp only [List.mem_filter, List.mem_range]
  refine ⟨fun x => x.2, fun x => ⟨?_, x⟩⟩
  obtain ⟨o, e⟩ := Option.isSome_iff_exists.mp x
  exact get_lt e

theorem live_nodup (h : Heap) : h.live.Nodup := List.nodup_range.sublist List.filter_sublist

/-! ### Values in memory -/

mutual
/-- The tree is at the address, made of the nodes of the list. -/
def TreeAt (h : Heap) : TNode → Nat → List Nat → Prop
  | .leaf fl pre lab idx, a, fp => h.get a = some (.node 1 (.leaf fl pre lab idx) []) ∧ fp = [a]
  | .gate fl ty thr subs, a, fp => ∃ kids fps, h.get a = some (.node 1 (.gate fl ty thr) kids) ∧
      TreesAt h subs kids fps ∧ fp = a :: fps
/-- The trees are at the addresses. -/
def TreesAt (h : Heap) : List TNode → List Nat → List Nat → Prop
  | [], kids, fp => kids = [] ∧ fp = []
  | t :: ts, kids, fp => ∃ k ks f fs, kids = k :: ks ∧ TreeAt h t k f ∧ TreesAt h ts ks fs ∧ fp = f ++ fs
end

mutual
theorem TreeAt.frame {h h' : Heap} : ∀ {t : TNode} {a : Nat} {fp : List Nat}, TreeAt h t a fp →
    (∀ x ∈ fp, h'.get x = h.get x) → TreeAt h' t a fp
  | .leaf .., a, fp, e, hf => by
    simp only [TreeAt] at e ⊢
    exact ⟨by rw [hf a (by simp [e.2])]; exact e.1, e.2⟩
  | .gate _ _ _ subs, a, fp, e, hf => by
    simp only [TreeAt] at e ⊢
    obtain ⟨kids, fps, e1, e2, rfl⟩ := e
    exact ⟨kids, fps, by rw [hf a (by simp)]; exact e1, TreesAt.frame e2 (fun x hx => hf x (by simp [hx])), rfl⟩
theorem TreesAt.frame {h h' : Heap} : ∀ {ts : List TNode} {ks fp : List Nat}, TreesAt h ts ks fp →
    (∀ x ∈ fp, h'.get x = h.get x) → TreesAt h' ts ks fp
  | [], ks, fp, e, _ => by simp only [TreesAt] at e ⊢; exact e
  | t :: ts, ks, fp, e, hf => by
    simp only [TreesAt] at e ⊢
    obtain ⟨k, ks', f, fs, e1, e2, e3, rfl⟩ := e
    exact ⟨k, ks', f, fs, e1, TreeAt.frame e2 (fun x hx => hf x (by simp [hx])),
      TreesAt.frame e3 (fun x hx => hf x (by simp [hx])), rfl⟩
end

mutual
theorem TreeAt.nodes {h : Heap} : ∀ {t : TNode} {a : Nat} {fp : List Nat}, TreeAt h t a fp →
    ∀ x ∈ fp, ∃ tag kids, h.get x = some (.node 1 tag kids)
  | .leaf .., a, fp, e, x, hx => by
    simp only [TreeAt] at e
    rw [e.2] at hx; simp at hx; subst hx
    exact ⟨_, _, e.1⟩
  | .gate _ _ _ subs, a, fp, e, x, hx => by
    simp only [TreeAt] at e
    obtain ⟨kids, fps, e1, e2, rfl⟩ := e
    rcases List.mem_cons.mp hx with rfl | hx
    · exact ⟨_, _, e1⟩
    · exact TreesAt.nodes e2 x hx
theorem TreesAt.nodes {h : Heap} : ∀ {ts : List TNode} {ks fp : List Nat}, TreesAt h ts ks fp →
    ∀ x ∈ fp, ∃ tag kids, h.get x = some (.node 1 tag kids)
  | [], ks, fp, e, x, hx => by simp only [TreesAt] at e; rw [e.2] at hx; simp at hx
  | t :: ts, ks, fp, e, x, hx => by
    simp only [TreesAt] at e
    obtain ⟨k, ks', f, fs, e1, e2, e3, rfl⟩ := e
    rcases List.mem_append.mp hx with hx | hx
    · exact TreeAt.nodes e2 x hx
    · exact TreesAt.nodes e3 x hx
end

theorem TreeAt.root {h : Heap} {t : TNode} {a : Nat} {fp : List Nat} (e : TreeAt h t a fp) : ∃ r, fp = a :: r := by
  cases t with
  | leaf => simp only [TreeAt] at e; exact ⟨[], e.2⟩
  | gate => simp only [TreeAt] at e; obtain ⟨_, fps, _, _, rfl⟩ := e; exact ⟨fps, rfl⟩

theorem TreesAt.kids {h : Heap} : ∀ {ts : List TNode} {ks fp : List Nat}, TreesAt h ts ks fp → fp.Nodup →
    ks.Nodup ∧ ∀ k ∈ ks, k ∈ fp
  | [], ks, fp, e, _ => by simp only [TreesAt] at e; simp [e.1]
  | t :: ts, ks, fp, e, hn => by
    simp only [TreesAt] at e
    obtain ⟨k, ks', f, fs, rfl, e2, e3, rfl⟩ := e
    obtain ⟨n1, n2, n3⟩ := List.nodup_append.mp hn
    obtain ⟨m1, m2⟩ := TreesAt.kids e3 n2
    obtain ⟨r, hr⟩ := e2.root
    refine ⟨List.nodup_cons.mpr ⟨fun hk => n3 k (by simp [hr]) k (m2 k hk) rfl, m1⟩, ?_⟩
    intro x hx
    rcases List.mem_cons.mp hx with rfl | hx
    · simp [hr]
    · simp [m2 x hx]

mutual
/-- Number of nodes. -/
def nodes : TNode → Nat
  | .leaf .. => 1
  | .gate _ _ _ subs => nodesL subs + 1
/-- Number of nodes of several trees. -/
def nodesL : List TNode → Nat
  | [] => 0
  | t :: ts => nodes t + nodesL ts
end

mutual
theorem TreeAt.length {h : Heap} : ∀ {t : TNode} {a : Nat} {fp : List Nat}, TreeAt h t a fp → fp.length = nodes t
  | .leaf .., a, fp, e => by simp only [TreeAt] at e; simp [e.2, nodes]
  | .gate _ _ _ subs, a, fp, e => by
    simp only [TreeAt] at e
    obtain ⟨kids, fps, e1, e2, rfl⟩ := e
    simp [nodes, TreesAt.length e2]
theorem TreesAt.length {h : Heap} : ∀ {ts : List TNode} {ks fp : List Nat}, TreesAt h ts ks fp → fp.length = nodesL ts
  | [], ks, fp, e => by simp only [TreesAt] at e; simp [e.2, nodesL]
  | t :: ts, ks, fp, e => by
    simp only [TreesAt] at e
    obtain ⟨k, ks', f, fs, rfl, e2, e3, rfl⟩ := e
    simp [nodesL, TreeAt.length e2, TreesAt.length e3]
end

/-- The word stands for the value and owns the objects of the list. A word without a value owns nothing, whatever it is. -/
def Rep (h : Heap) : SVal → HVal → List Nat → Prop
  | .none, _, fp => fp = []
  | .uint n, w, fp => w = .uint n ∧ fp = []
  | .str s, w, fp => ∃ a, w = .ptr a ∧ h.get a = some (.str s) ∧ fp = [a]
  | .num n, w, fp => ∃ a, w = .ptr a ∧ h.get a = some (.num n) ∧ fp = [a]
  | .attrs none, w, fp => w = .null ∧ fp = []
  | .attrs (some l), w, fp => ∃ a, w = .ptr a ∧ h.get a = some (.vec l) ∧ fp = [a]
  | .tree t, w, fp => ∃ a, w = .ptr a ∧ TreeAt h t a fp

theorem Rep.frame {h h' : Heap} {v : SVal} {w : HVal} {fp : List Nat} (e : Rep h v w fp)
    (hf : ∀ x ∈ fp, h'.get x = h.get x) : Rep h' v w fp := by
  cases v with
  | none => exact e
  | uint n => exact e
  | str s => obtain ⟨a, rfl, e, rfl⟩ := e; exact ⟨a, rfl, by rw [hf a (by simp)]; exact e, rfl⟩
  | num s => obtain ⟨a, rfl, e, rfl⟩ := e; exact ⟨a, rfl, by rw [hf a (by simp)]; exact e, rfl⟩
  | attrs l =>
    cases l with
    | none => exact e
    | some l => obtain ⟨a, rfl, e, rfl⟩ := e; exact ⟨a, rfl, by rw [hf a (by simp)]; exact e, rfl⟩
  | tree t => obtain ⟨a, rfl, e⟩ := e; exact ⟨a, rfl, e.frame hf⟩

/-- Words with their values. -/
abbrev Items := List (SVal × HVal)

/-- The words stand for the values and own the objects of the list. -/
def Reps (h : Heap) : Items → List Nat → Prop
  | [], fp => fp = []
  | i :: P, fp => ∃ f fs, Rep h i.1 i.2 f ∧ Reps h P fs ∧ fp = f ++ fs

theorem Reps.frame {h h' : Heap} : ∀ {P : Items} {fp : List Nat}, Reps h P fp → (∀ x ∈ fp, h'.get x = h.get x) →
    Reps h' P fp
  | [], _, e, _ => e
  | _ :: _, _, ⟨f, fs, e1, e2, e3⟩, hf => by
    subst e3
    exact ⟨f, fs, e1.frame (fun x hx => hf x (by simp [hx])), e2.frame (fun x hx => hf x (by simp [hx])), rfl⟩

theorem reps_append {h : Heap} : ∀ {P Q : Items} {fp : List Nat}, Reps h (P ++ Q) fp ↔
    ∃ f g, Reps h P f ∧ Reps h Q g ∧ fp = f ++ g
  | [], Q, fp => by
    simp only [List.nil_append, Reps]
    constructor
    · intro e; exact ⟨[], fp, rfl, e, rfl⟩
    · rintro ⟨f, g, rfl, e, rfl⟩; exact e
  | i :: P, Q, fp => by
    simp only [List.cons_append, Reps, reps_append (P := P)]
    constructor
    · rintro ⟨f, fs, e1, ⟨g, g', e2, e3, rfl⟩, rfl⟩
      exact ⟨f ++ g, g', ⟨f, g, e1, e2, rfl⟩, e3, by simp⟩
    · rintro ⟨_, g', ⟨f, g, e1, e2, rfl⟩, e3, rfl⟩
      exact ⟨f, g ++ g', e1, ⟨g, g', e2, e3, rfl⟩, by simp⟩

theorem Reps.perm {h : Heap} {P Q : Items} (hp : P.Perm Q) : ∀ {fp : List Nat}, Reps h P fp →
    ∃ fq, Reps h Q fq ∧ fp.Perm fq := by
  induction hp with
  | nil => intro fp e; exact ⟨fp, e, List.Perm.refl _⟩
  | cons i _ ih =>
    rintro fp ⟨f, fs, e1, e2, rfl⟩
    obtain ⟨fq, e3, e4⟩ := ih e2
    exact ⟨f ++ fq, ⟨f, fq, e1, e3, rfl⟩, e4.append_left f⟩
  | swap i j P =>
    rintro fp ⟨f, _, e1, ⟨g, fs, e2, e3, rfl⟩, rfl⟩
    refine ⟨g ++ (f ++ fs), ⟨g, _, e2, ⟨f, fs, e1, e3, rfl⟩, rfl⟩, ?_⟩
    rw [← List.append_assoc, ← List.append_assoc]
    exact List.perm_append_comm.append_right fs
  | trans _ _ ih1 ih2 =>
    intro fp e
    obtain ⟨f1, e1, p1⟩ := ih1 e
    obtain ⟨f2, e2, p2⟩ := ih2 e1
    exact ⟨f2, e2, p1.trans p2⟩

/-- What was lost: addresses, with the text for the string of a reserved name and without one for a tree node. -/
abbrev Loss := List (Nat × Option Bytes)

/-- The addresses. -/
def addrs (L : Loss) : List Nat := L.map Prod.fst

/-- The object that was lost. -/
def LostIs (h : Heap) (p : Nat × Option Bytes) : Prop :=
  match p.2 with
  | none => ∃ r tag kids, h.get p.1 = some (.node r tag kids)
  | some s => h.get p.1 = some (.str s) ∧ hasSub b!"expint" s = true

theorem lost_frame {h h' : Heap} {L : Loss} (e : ∀ p ∈ L, LostIs h p) (hf : ∀ x ∈ addrs L, h'.get x = h.get x) :
    ∀ p ∈ L, LostIs h' p := by
  intro p hp
  have h1 := hf p.1 (List.mem_map_of_mem hp)
  have h2 := e p hp
  unfold LostIs at h2 ⊢
  rw [h1]; exact h2

/-- The words own disjoint objects, and these and the lost ones (`L`) are all that exist. -/
def Holds (h : Heap) (P : Items) (L : Loss) : Prop :=
  ∃ fp, Reps h P fp ∧ (fp ++ addrs L).Nodup ∧ (∀ a, (h.get a).isSome ↔ a ∈ fp ++ addrs L) ∧ ∀ p ∈ L, LostIs h p

theorem Holds.perm {h : Heap} {P Q : Items} {L : Loss} (hp : P.Perm Q) (e : Holds h P L) : Holds h Q L := by
  obtain ⟨fp, e1, e2, e3, e4⟩ := e
  obtain ⟨fq, f1, p⟩ := e1.perm hp
  have pp := p.append_right (addrs L)
  exact ⟨fq, f1, pp.nodup_iff.mp e2, fun a => (e3 a).trans pp.mem_iff, e4⟩

theorem holds_none {h : Heap} {P : Items} {L : Loss} {w : HVal} : Holds h ((.none, w) :: P) L ↔ Holds h P L := by
  unfold Holds
  constructor
  · rintro ⟨_, ⟨f, fs, rfl, e, rfl⟩, r⟩; exact ⟨_, e, r⟩
  · rintro ⟨fs, e, r⟩; exact ⟨fs, ⟨[], fs, rfl, e, rfl⟩, r⟩

theorem holds_uint {h : Heap} {P : Items} {L : Loss} {w : HVal} {n : UInt32} :
    Holds h ((.uint n, w) :: P) L ↔ w = .uint n ∧ Holds h P L := by
  unfold Holds
  constructor
  · rintro ⟨_, ⟨f, fs, ⟨rfl, rfl⟩, e, rfl⟩, r⟩; exact ⟨rfl, _, e, r⟩
  · rintro ⟨rfl, fs, e, r⟩; exact ⟨fs, ⟨[], fs, ⟨rfl, rfl⟩, e, rfl⟩, r⟩

theorem holds_null {h : Heap} {P : Items} {L : Loss} {w : HVal} :
    Holds h ((.attrs none, w) :: P) L ↔ w = .null ∧ Holds h P L := by
  unfold Holds
  constructor
  · rintro ⟨_, ⟨f, fs, ⟨rfl, rfl⟩, e, rfl⟩, r⟩; exact ⟨rfl, _, e, r⟩
  · rintro ⟨rfl, fs, e, r⟩; exact ⟨fs, ⟨[], fs, ⟨rfl, rfl⟩, e, rfl⟩, r⟩

/-- An object that stands alone for a value. -/
def Cell (v : SVal) (o : Obj) : Prop :=
  match v with
  | .str s => o = .str s
  | .num n => o = .num n
  | .attrs (some l) => o = .vec l
  | _ => False

theorem Cell.rep {h : Heap} {v : SVal} {o : Obj} (c : Cell v o) (w : HVal) (fp : List Nat) :
    Rep h v w fp ↔ ∃ a, w = .ptr a ∧ h.get a = some o ∧ fp = [a] := by
  cases v with
  | str s => cases c; exact Iff.rfl
  | num s => cases c; exact Iff.rfl
  | attrs l =>
    cases l with
    | none => exact c.elim
    | some l => cases c; exact Iff.rfl
  | _ => exact c.elim

theorem fresh {h : Heap} {L : Loss} {fp : List Nat}
    (e3 : ∀ a, (h.get a).isSome ↔ a ∈ fp ++ addrs L) : h.cells.length ∉ fp ++ addrs L := by
  intro hm
  have := (e3 _).mpr hm
  rw [get_new] at this
  cases this

theorem holds_alloc {h : Heap} {P : Items} {L : Loss} {v : SVal} {o : Obj} (c : Cell v o) (e : Holds h P L) :
    Holds (h.alloc o).2 ((v, .ptr (h.alloc o).1) :: P) L := by
  obtain ⟨fp, e1, e2, e3, e4⟩ := e
  have hfr := fresh e3
  have hne : ∀ x ∈ fp ++ addrs L, (h.alloc o).2.get x = h.get x := fun x hx => by
    rw [get_alloc, if_neg (by rintro rfl; exact hfr hx)]
  refine ⟨h.cells.length :: fp, ⟨[h.cells.length], fp, ?_, ?_, rfl⟩, ?_, ?_, ?_⟩
  · rw [c.rep]; exact ⟨_, rfl, by rw [get_alloc]; simp [Heap.alloc], rfl⟩
  · exact e1.frame fun x hx => hne x (by simp [hx])
  · rw [List.cons_append]; exact List.nodup_cons.mpr ⟨hfr, e2⟩
  · intro a
    rw [get_alloc]
    by_cases ha : a = h.cells.length
    · simp [ha]
    · rw [if_neg ha, e3 a]; simp [ha]
  · exact lost_frame e4 fun x hx => hne x (by simp [hx])

/-- A word that owns one cell. -/
theorem holds_cell {h : Heap} {P : Items} {L : Loss} {v : SVal} {w : HVal} {o : Obj} (c : Cell v o)
    (e : Holds h ((v, w) :: P) L) : ∃ a, w = .ptr a ∧ h.get a = some o ∧ Holds (h.put a none) P L ∧
      ∀ v' o', Cell v' o' → Holds (h.put a (some o')) ((v', .ptr a) :: P) L := by
  obtain ⟨_, ⟨f, fp, r, e1, rfl⟩, e2, e3, e4⟩ := e
  rw [c.rep] at r
  obtain ⟨a, rfl, ha, rfl⟩ := r
  rw [List.append_assoc] at e2 e3
  rw [List.singleton_append] at e2 e3
  obtain ⟨hfr, e2⟩ := List.nodup_cons.mp e2
  have hne : ∀ (y : Option Obj), ∀ x ∈ fp ++ addrs L, (h.put a y).get x = h.get x := fun y x hx => by
    rw [get_put ha, if_neg (by rintro rfl; exact hfr hx)]
  refine ⟨a, rfl, ha, ⟨fp, e1.frame fun x hx => hne _ x (by simp [hx]), e2, ?_, ?_⟩, ?_⟩
  · intro b
    rw [get_put ha]
    by_cases hb : b = a
    · subst hb; simpa using hfr
    · rw [if_neg hb, e3 b]; simp [hb]
  · exact lost_frame e4 fun x hx => hne _ x (by simp [hx])
  · intro v' o' c'
    refine ⟨a :: fp, ⟨[a], fp, ?_, e1.frame fun x hx => hne _ x (by simp [hx]), rfl⟩, ?_, ?_, ?_⟩
    · rw [c'.rep]; exact ⟨a, rfl, by rw [get_put ha, if_pos rfl], rfl⟩
    · rw [List.cons_append]; exact List.nodup_cons.mpr ⟨hfr, e2⟩
    · intro b
      rw [get_put ha]
      by_cases hb : b = a
      · simp [hb]
      · rw [if_neg hb, e3 b]; simp [hb]
    · exact lost_frame e4 fun x hx => hne _ x (by simp [hx])

theorem holds_str {h : Heap} {P : Items} {L : Loss} {s : Bytes} {w : HVal} (e : Holds h ((.str s, w) :: P) L) :
    loadStr h w = .ok s ∧ ∃ h', delStr h w = .ok h' ∧ Holds h' P L := by
  obtain ⟨a, rfl, ha, e', -⟩ := holds_cell (v := .str s) (o := .str s) rfl e
  exact ⟨by simp [loadStr, ha], _, by simp [delStr, ha], e'⟩

theorem holds_num {h : Heap} {P : Items} {L : Loss} {n : UInteger} {w : HVal} (e : Holds h ((.num n, w) :: P) L) :
    loadNum h w = .ok n ∧ ∃ h', delNum h w = .ok h' ∧ Holds h' P L := by
  obtain ⟨a, rfl, ha, e', -⟩ := holds_cell (v := .num n) (o := .num n) rfl e
  exact ⟨by simp [loadNum, ha], _, by simp [delNum, ha], e'⟩

theorem holds_vec {h : Heap} {P : Items} {L : Loss} {l : List Bytes} {w : HVal}
    (e : Holds h ((.attrs (some l), w) :: P) L) :
    loadVec h w = .ok l ∧ ∃ h', delVec h w = .ok h' ∧ Holds h' P L := by
  obtain ⟨a, rfl, ha, e', -⟩ := holds_cell (v := .attrs (some l)) (o := .vec l) rfl e
  exact ⟨by simp [loadVec, ha], _, by simp [delVec, ha], e'⟩

/-! ### Trees -/

mutual
theorem allocTree_spec : ∀ (t : TNode) (h : Heap), h.cells.length ≤ (allocTree t h).2.cells.length ∧
    (∀ a, a < h.cells.length → (allocTree t h).2.get a = h.get a) ∧
    ∃ fp, TreeAt (allocTree t h).2 t (allocTree t h).1 fp ∧ fp.Nodup ∧
      ∀ a, a ∈ fp ↔ h.cells.length ≤ a ∧ a < (allocTree t h).2.cells.length
  | .leaf fl pre lab idx, h => by
    simp only [allocTree]
    refine ⟨by simp [Heap.alloc], ?_, [h.cells.length], ?_, by simp, ?_⟩
    · intro a ha; rw [get_alloc, if_neg (by omega)]
    · simp only [TreeAt]
      exact ⟨by rw [get_alloc]; simp [Heap.alloc], rfl⟩
    · intro a; simp [Heap.alloc]; omega
  | .gate fl ty thr subs, h => by
    obtain ⟨i1, i2, fp, i3, i4, i5⟩ := allocTrees_spec subs h
    simp only [allocTree]
    refine ⟨by simp [Heap.alloc]; omega, ?_, (allocTrees subs h).2.cells.length :: fp, ?_, ?_, ?_⟩
    · intro a ha; rw [get_alloc, if_neg (by omega)]; exact i2 a ha
    · simp only [TreeAt]
      refine ⟨_, fp, by rw [get_alloc]; simp [Heap.alloc], i3.frame ?_, rfl⟩
      intro x hx
      have := (i5 x).mp hx
      rw [get_alloc, if_neg (by omega)]
    · refine List.nodup_cons.mpr ⟨fun hm => ?_, i4⟩
      have := (i5 _).mp hm
      omega
    · intro a
      simp only [List.mem_cons, i5, Heap.alloc, List.length_append, List.length_cons, List.length_nil]
      omega
theorem allocTrees_spec : ∀ (ts : List TNode) (h : Heap), h.cells.length ≤ (allocTrees ts h).2.cells.length ∧
    (∀ a, a < h.cells.length → (allocTrees ts h).2.get a = h.get a) ∧
    ∃ fp, TreesAt (allocTrees ts h).2 ts (allocTrees ts h).1 fp ∧ fp.Nodup ∧
      ∀ a, a ∈ fp ↔ h.cells.length ≤ a ∧ a < (allocTrees ts h).2.cells.length
  | [], h => by
    simp only [allocTrees]
    exact ⟨Nat.le_refl _, by simp, [], by simp [TreesAt], List.nodup_nil, fun a => by simp⟩
  | t :: ts, h => by
    obtain ⟨i1, i2, f, i3, i4, i5⟩ := allocTree_spec t h
    obtain ⟨j1, j2, fs, j3, j4, j5⟩ := allocTrees_spec ts (allocTree t h).2
    simp only [allocTrees]
    refine ⟨by omega, ?_, f ++ fs, ?_, ?_, ?_⟩
    · intro a ha; rw [j2 a (by omega)]; exact i2 a ha
    · simp only [TreesAt]
      refine ⟨_, _, f, fs, rfl, i3.frame ?_, j3, rfl⟩
      intro x hx
      exact j2 x ((i5 x).mp hx).2
    · refine List.nodup_append.mpr ⟨i4, j4, ?_⟩
      intro a ha b hb e
      have := (i5 a).mp ha
      have := (j5 b).mp hb
      omega
    · intro a
      simp only [List.mem_append, i5, j5]
      omega
end

theorem get_none_of_le {h : Heap} {a : Nat} (ha : h.cells.length ≤ a) : h.get a = none := by
  unfold Heap.get; rw [List.getElem?_eq_none ha]; rfl

theorem holds_allocTree {h : Heap} {P : Items} {L : Loss} (t : TNode) (e : Holds h P L) :
    Holds (allocTree t h).2 ((.tree t, .ptr (allocTree t h).1) :: P) L := by
  obtain ⟨fp, e1, e2, e3, e4⟩ := e
  obtain ⟨i1, i2, f, i3, i4, i5⟩ := allocTree_spec t h
  have hlt : ∀ x ∈ fp ++ addrs L, x < h.cells.length := fun x hx => by
    obtain ⟨o, ho⟩ := Option.isSome_iff_exists.mp ((e3 x).mpr hx)
    exact get_lt ho
  have hne : ∀ x ∈ fp ++ addrs L, (allocTree t h).2.get x = h.get x := fun x hx => i2 x (hlt x hx)
  refine ⟨f ++ fp, ⟨f, fp, ⟨_, rfl, i3⟩, e1.frame fun x hx => hne x (by simp [hx]), rfl⟩, ?_, ?_, ?_⟩
  · rw [List.append_assoc]
    refine List.nodup_append.mpr ⟨i4, e2, fun a ha b hb hab => ?_⟩
    have := ((i5 a).mp ha).1
    have := hlt b hb
    omega
  · intro a
    rw [List.append_assoc, List.mem_append]
    by_cases ha : a < h.cells.length
    · rw [i2 a ha, e3 a]
      constructor
      · exact Or.inr
      · rintro (hx | hx)
        · have := ((i5 a).mp hx).1; omega
        · exact hx
    · constructor
      · intro hs
        obtain ⟨o, ho⟩ := Option.isSome_iff_exists.mp hs
        exact Or.inl ((i5 a).mpr ⟨by omega, get_lt ho⟩)
      · rintro (hx | hx)
        · obtain ⟨_, _, hg⟩ := i3.nodes a hx
          rw [hg]; rfl
        · exact absurd (hlt a hx) ha
  · exact lost_frame e4 fun x hx => hne x (by simp [hx])

/-- A new gate over two trees. -/
theorem holds_gate {h : Heap} {P : Items} {L : Loss} {l r : TNode} {w1 w2 : HVal} (fl : Flags) (ty : Gate) (k : Nat)
    (e : Holds h ((.tree l, w1) :: (.tree r, w2) :: P) L) : ∃ a b, w1 = .ptr a ∧ w2 = .ptr b ∧
      Holds (h.alloc (.node 1 (.gate fl ty k) [a, b])).2
        ((.tree (.gate fl ty k [l, r]), .ptr (h.alloc (.node 1 (.gate fl ty k) [a, b])).1) :: P) L := by
  obtain ⟨_, ⟨f, _, ⟨a, rfl, t1⟩, ⟨g, fp, ⟨b, rfl, t2⟩, e1, rfl⟩, rfl⟩, e2, e3, e4⟩ := e
  refine ⟨a, b, rfl, rfl, ?_⟩
  have hfr := fresh e3
  have hne : ∀ x ∈ (f ++ (g ++ fp)) ++ addrs L, (h.alloc (.node 1 (.gate fl ty k) [a, b])).2.get x = h.get x := fun x hx => by
    rw [get_alloc, if_neg (by rintro rfl; exact hfr hx)]
  refine ⟨h.cells.length :: (f ++ g) ++ fp, ⟨h.cells.length :: (f ++ g), fp, ⟨_, rfl, ?_⟩, ?_, rfl⟩, ?_, ?_, ?_⟩
  · simp only [TreeAt]
    refine ⟨[a, b], f ++ g, by rw [get_alloc]; simp [Heap.alloc], ?_, rfl⟩
    simp only [TreesAt]
    exact ⟨a, [b], f, g, rfl, t1.frame (fun x hx => hne x (by simp [hx])),
      ⟨b, [], g, [], rfl, t2.frame (fun x hx => hne x (by simp [hx])), ⟨rfl, rfl⟩, by simp⟩, rfl⟩
  · exact e1.frame fun x hx => hne x (by simp [hx])
  · have : h.cells.length :: (f ++ g) ++ fp ++ addrs L = h.cells.length :: ((f ++ (g ++ fp)) ++ addrs L) := by simp
    rw [this]
    exact List.nodup_cons.mpr ⟨hfr, e2⟩
  · intro x
    have hx' : x ∈ h.cells.length :: (f ++ g) ++ fp ++ addrs L ↔ x = h.cells.length ∨ x ∈ (f ++ (g ++ fp)) ++ addrs L := by
      simp
    rw [get_alloc, hx']
    by_cases hx : x = h.cells.length
    · simp [hx]
    · rw [if_neg hx, e3 x]; simp [hx]
  · exact lost_frame e4 fun x hx => hne x (by simp [hx])

theorem deRefs_one : RNode.deRefs (1 : UInt32).toNat 1 = some false := by decide

/-- The loop of the destructor over subnodes with reference count 1. -/
theorem delKids_spec (fuel : Nat) : ∀ (ks : List Nat) (h : Heap), ks.Nodup →
    (∀ k ∈ ks, ∃ tag kids, h.get k = some (.node 1 tag kids)) →
    ∃ h', ks.foldlM (deRefKid (delNode fuel)) h = .ok h' ∧
      (∀ x, x ∉ ks → h'.get x = h.get x) ∧ ∀ x ∈ ks, ∃ tag kids, h'.get x = some (.node 0 tag kids)
  | [], h, _, _ => ⟨h, rfl, fun _ _ => rfl, by simp⟩
  | k :: ks, h, hn, hk => by
    obtain ⟨hfr, hn'⟩ := List.nodup_cons.mp hn
    obtain ⟨tag, kids, hg⟩ := hk k (by simp)
    obtain ⟨h', i1, i2, i3⟩ := delKids_spec fuel ks (h.put k (some (.node 0 tag kids))) hn' (fun x hx => by
      obtain ⟨tg, kd, hh⟩ := hk x (by simp [hx])
      refine ⟨tg, kd, ?_⟩
      rw [get_put hg, if_neg (by rintro rfl; exact hfr hx)]; exact hh)
    refine ⟨h', ?_, ?_, ?_⟩
    · have hd : deRefKid (delNode fuel) h k = .ok (h.put k (some (.node 0 tag kids))) := by
        unfold deRefKid
        rw [hg]
        simp only [deRefs_one]
      rw [List.foldlM_cons, hd]
      exact i1
    · intro x hx
      simp only [List.mem_cons, not_or] at hx
      rw [i2 x hx.2, get_put hg, if_neg hx.1]
    · intro x hx
      by_cases hx' : x ∈ ks
      · exact i3 x hx'
      · have : x = k := by simpa [hx'] using hx
        subst this
        exact ⟨tag, kids, by rw [i2 x hx', get_put hg, if_pos rfl]⟩

/-- `delete` of a tree releases its root and loses the other nodes. -/
theorem holds_delTree {h : Heap} {P : Items} {L : Loss} {t : TNode} {w : HVal} (e : Holds h ((.tree t, w) :: P) L) :
    ∃ h' M, delTree h w = .ok h' ∧ Holds h' P (M ++ L) ∧ M.length + 1 = nodes t ∧ ∀ p ∈ M, p.2 = none := by
  obtain ⟨_, ⟨f, fp, ⟨a, rfl, ht⟩, e1, rfl⟩, e2, e3, e4⟩ := e
  have hlen := ht.length
  have hnode := ht.nodes
  rw [List.append_assoc] at e2
  obtain ⟨n1, n2, n3⟩ := List.nodup_append.mp e2
  -- the subnodes
  obtain ⟨kids, M, tag, hg, rfl, hkn, hkm⟩ : ∃ kids M tag, h.get a = some (.node 1 tag kids) ∧ f = a :: M ∧ kids.Nodup ∧
      ∀ k ∈ kids, k ∈ M := by
    cases t with
    | leaf => simp only [TreeAt] at ht; exact ⟨[], [], _, ht.1, ht.2, List.nodup_nil, by simp⟩
    | gate fl ty thr subs =>
      simp only [TreeAt] at ht
      obtain ⟨kids, fps, t1, t2, rfl⟩ := ht
      obtain ⟨k1, k2⟩ := t2.kids (List.nodup_cons.mp n1).2
      exact ⟨kids, fps, _, t1, rfl, k1, k2⟩
  obtain ⟨haM, hMn⟩ := List.nodup_cons.mp n1
  obtain ⟨h1, i1, i2, i3⟩ := delKids_spec h.cells.length kids h hkn (fun k hk => hnode k (by simp [hkm k hk]))
  have hak : a ∉ kids := fun hk => haM (hkm a hk)
  have hg1 : h1.get a = some (.node 1 tag kids) := by rw [i2 a hak]; exact hg
  have hget : ∀ x, (h1.put a none).get x = if x = a then none else h1.get x := fun x => get_put hg1 none x
  have hout : ∀ x ∈ fp ++ addrs L, (h1.put a none).get x = h.get x := fun x hx => by
    rw [hget, if_neg (fun hxa => n3 a (by simp) x hx hxa.symm), i2 x]
    intro hk
    exact n3 x (by simp [hkm x hk]) x hx rfl
  have hM : ∀ x ∈ M, ∃ r tag kids, (h1.put a none).get x = some (.node r tag kids) := fun x hx => by
    rw [hget, if_neg (by rintro rfl; exact haM hx)]
    by_cases hk : x ∈ kids
    · obtain ⟨tg, kd, hh⟩ := i3 x hk
      exact ⟨0, tg, kd, hh⟩
    · obtain ⟨tg, kd, hh⟩ := hnode x (by simp [hx])
      exact ⟨1, tg, kd, by rw [i2 x hk]; exact hh⟩
  have hadd : addrs (M.map (fun x => (x, none)) ++ L) = M ++ addrs L := by
    simp [addrs, Function.comp_def]
  refine ⟨h1.put a none, M.map fun x => (x, none), ?_, ⟨fp, e1.frame fun x hx => hout x (by simp [hx]), ?_, ?_, ?_⟩, ?_, ?_⟩
  · simp only [delTree, delNode, hg]
    rw [i1]
    simp only [Res.ok_bind, hg1]
  · have : (fp ++ (M ++ addrs L)).Perm (M ++ (fp ++ addrs L)) := by
      rw [← List.append_assoc, ← List.append_assoc]; exact List.perm_append_comm.append_right (addrs L)
    rw [hadd]
    rw [this.nodup_iff]
    exact List.nodup_append.mpr ⟨hMn, n2, fun x hx y hy => n3 x (by simp [hx]) y hy⟩
  · intro x
    rw [hadd]
    have hmem : x ∈ fp ++ (M ++ addrs L) ↔ x ∈ M ∨ x ∈ fp ++ addrs L := by
      simp only [List.mem_append]; tauto
    rw [hmem]
    by_cases hx : x ∈ fp ++ addrs L
    · rw [hout x hx, e3 x]
      simp only [hx, or_true, iff_true]
      rw [List.append_assoc]; exact List.mem_append_right _ hx
    · by_cases hxM : x ∈ M
      · obtain ⟨_, _, _, hh⟩ := hM x hxM
        rw [hh]; simp [hxM]
      · simp only [hx, hxM, or_self, iff_false]
        rw [hget]
        by_cases hxa : x = a
        · simp [hxa]
        · rw [if_neg hxa, i2 x (fun hk => hxM (hkm x hk))]
          rw [e3 x, List.append_assoc]
          simp only [List.cons_append, List.mem_cons, List.mem_append] at hx ⊢
          tauto
  · intro p hp
    rcases List.mem_append.mp hp with hp | hp
    · obtain ⟨x, hx, rfl⟩ := List.mem_map.mp hp
      exact hM x hx
    · exact lost_frame e4 (fun x hx => hout x (by simp [hx])) p hp
  · simpa using hlen
  · intro p hp
    obtain ⟨x, hx, rfl⟩ := List.mem_map.mp hp
    rfl

/-! ### The scanner -/

/-- The tokens of the matches. -/
def toksOf (input : List (Nat × Bytes)) : List Tok := input.filterMap fun p => yyAction p.1 p.2

theorem toksOf_lexemes : ∀ (fuel : Nat) (s : Bytes), toksOf (lexemes fuel s) = yyLex fuel s
  | 0, _ => rfl
  | _ + 1, [] => rfl
  | fuel + 1, b :: s => by
    simp only [lexemes, yyLex, toksOf, List.filterMap_cons]
    have ih := toksOf_lexemes fuel ((b :: s).drop (yyMatch 1 0 (0, 0) (b :: s)).2)
    unfold toksOf at ih
    cases yyAction (yyAccept.getD (yyMatch 1 0 (0, 0) (b :: s)).1 0)
      ((b :: s).take (yyMatch 1 0 (0, 0) (b :: s)).2) with
    | none => simp only [ih]
    | some t => simp only [ih]

/-- A string is lost. -/
theorem holds_lose {h : Heap} {P : Items} {s : Bytes} {w : HVal} (hs : hasSub b!"expint" s = true)
    (e : Holds h ((.str s, w) :: P) []) : ∃ a, w = .ptr a ∧ Holds h P [(a, some s)] := by
  obtain ⟨_, ⟨f, fp, ⟨a, rfl, ha, rfl⟩, e1, rfl⟩, e2, e3, e4⟩ := e
  have pp : ([a] ++ fp).Perm (fp ++ [a]) := List.perm_append_comm
  simp only [addrs, List.map_nil, List.append_nil] at e2 e3
  refine ⟨a, rfl, fp, e1, pp.nodup_iff.mp e2, ?_, ?_⟩
  · intro b; rw [e3 b]; exact pp.mem_iff
  · intro p hp
    simp at hp; subst hp
    exact ⟨ha, hs⟩

/-- What the lookahead owns and what scanning it lost. -/
inductive Scanned (h : Heap) (P : Items) (w : HVal) : Tok → Prop
  | keep {t : Tok} : Holds h ((t.val, w) :: P) [] → Scanned h P w t
  | lost {a : Nat} {s : Bytes} : Holds h P [(a, some s)] → Scanned h P w .error

theorem scanLeaf_sim {h : Heap} {P : Items} (text : Bytes) (e : Holds h P []) :
    ∃ w h', scanLeaf text h = .ok ((actLeaf text).sym, w, h') ∧ Scanned h' P w (actLeaf text) := by
  have e1 := holds_alloc (v := .str text) (o := .str text) rfl e
  obtain ⟨l1, h1, d1, e2⟩ := holds_str e1
  have keep : ∀ t : Tok, t.val = .none → Scanned h1 P (.ptr (h.alloc (.str text)).1) t := fun t ht => by
    refine .keep ?_
    rw [ht]
    exact holds_none.mpr e2
  unfold scanLeaf actLeaf
  simp only [l1, Res.ok_bind, d1]
  split_ifs with c1 c2 c3 c4 c5 c6
  · exact ⟨_, _, rfl, keep _ rfl⟩
  · exact ⟨_, _, rfl, keep _ rfl⟩
  · exact ⟨_, _, rfl, keep _ rfl⟩
  · exact ⟨_, _, rfl, keep _ rfl⟩
  · exact ⟨_, _, rfl, keep _ rfl⟩
  · obtain ⟨a, ha, e3⟩ := holds_lose c6 e1
    exact ⟨_, _, rfl, .lost e3⟩
  · exact ⟨_, _, rfl, .keep e1⟩

theorem scanOp_sim {h : Heap} {P : Items} (text : Bytes) (e : Holds h P []) :
    ∃ w h', scanOp text h = .ok ((actOp text).sym, w, h') ∧ Scanned h' P w (actOp text) := by
  have e1 := holds_alloc (v := .str text) (o := .str text) rfl e
  obtain ⟨l1, h1, d1, e2⟩ := holds_str e1
  have keep : ∀ t : Tok, t.val = .none → Scanned h1 P (.ptr (h.alloc (.str text)).1) t := fun t ht => by
    refine .keep ?_
    rw [ht]
    exact holds_none.mpr e2
  unfold scanOp actOp
  simp only [l1, Res.ok_bind, d1]
  split_ifs
  all_goals exact ⟨_, _, rfl, keep _ rfl⟩

theorem scanUint_sim {h : Heap} {P : Items} (text : Bytes) (v : HVal) (e : Holds h P []) :
    ∃ w, scanUint text v h = ((actUint text).sym, w, h) ∧ Scanned h P w (actUint text) := by
  unfold scanUint actUint
  split_ifs
  · exact ⟨_, rfl, .keep (holds_none.mpr e)⟩
  · exact ⟨_, rfl, .keep (holds_uint.mpr ⟨rfl, e⟩)⟩
  · exact ⟨_, rfl, .keep (holds_none.mpr e)⟩

/-- A call of the scanner. -/
theorem scan_sim {P : Items} : ∀ (input : List (Nat × Bytes)) (v : HVal) (h : Heap), Holds h P [] →
    ∃ x w h' rest, scan v h input = .ok (x, w, h', rest) ∧
      ((toksOf input = [] ∧ rest = [] ∧ x = 0 ∧ Holds h' P []) ∨
        ∃ t, toksOf input = t :: toksOf rest ∧ x = t.sym ∧ Scanned h' P w t)
  | [], v, h, e => ⟨0, v, h, [], rfl, Or.inl ⟨rfl, rfl, rfl, e⟩⟩
  | (rule, text) :: rest, v, h, e => by
    by_cases r1 : rule = 1
    · subst r1
      obtain ⟨w, hs, hk⟩ := scanUint_sim text v e
      refine ⟨_, w, h, rest, ?_, Or.inr ⟨actUint text, rfl, rfl, hk⟩⟩
      simp only [scan, hs]
    by_cases r2 : rule = 2
    · subst r2
      obtain ⟨w, h', hs, hk⟩ := scanLeaf_sim text e
      refine ⟨_, w, h', rest, ?_, Or.inr ⟨actLeaf text, rfl, rfl, hk⟩⟩
      simp only [scan, hs, Res.ok_bind]
    by_cases r3 : rule = 3
    · subst r3
      obtain ⟨w, h', hs, hk⟩ := scanOp_sim text e
      refine ⟨_, w, h', rest, ?_, Or.inr ⟨actOp text, rfl, rfl, hk⟩⟩
      simp only [scan, hs, Res.ok_bind]
    by_cases r4 : rule = 4
    · subst r4
      obtain ⟨x, w, h', rest', hs, hk⟩ := scan_sim rest v h e
      refine ⟨x, w, h', rest', ?_, ?_⟩
      · simp only [scan, hs]
      · have : toksOf ((4, text) :: rest) = toksOf rest := rfl
        rw [this]; exact hk
    by_cases r5 : rule = 5
    · subst r5
      exact ⟨_, v, h, rest, rfl, Or.inr ⟨.eol, rfl, rfl, .keep (holds_none.mpr e)⟩⟩
    · refine ⟨_, v, h, rest, ?_, Or.inr ⟨.chr (text.headD 0), ?_, rfl, .keep (holds_none.mpr e)⟩⟩
      · unfold scan; split <;> simp_all
      · have : yyAction rule text = some (.chr (text.headD 0)) := by
          unfold yyAction; split <;> simp_all
        simp only [toksOf, List.filterMap_cons, this]

/-! ### The actions -/

section
variable {h : Heap} {P : Items} {L : Loss} {a b c d x : SVal × HVal}

theorem Holds.at1 (e : Holds h (a :: x :: P) L) : Holds h (x :: a :: P) L := e.perm (List.perm_middle (l₁ := [a]))

theorem Holds.at2 (e : Holds h (a :: b :: x :: P) L) : Holds h (x :: a :: b :: P) L :=
  e.perm (List.perm_middle (l₁ := [a, b]))

theorem Holds.at3 (e : Holds h (a :: b :: c :: x :: P) L) : Holds h (x :: a :: b :: c :: P) L :=
  e.perm (List.perm_middle (l₁ := [a, b, c]))

theorem Holds.at4 (e : Holds h (a :: b :: c :: d :: x :: P) L) : Holds h (x :: a :: b :: c :: d :: P) L :=
  e.perm (List.perm_middle (l₁ := [a, b, c, d]))
end

theorem buildH_ok {st : HSt} {f : Drv → Res (TNode × Drv)} {t : TNode} {d' : Drv} {P : Items} {L : Loss}
    (hf : f st.drv = .ok (t, d')) (e : Holds st.heap P L) :
    ∃ w h', buildH f st = .ok (w, ⟨h', d', st.root⟩) ∧ Holds h' ((.tree t, w) :: P) L := by
  refine ⟨_, _, ?_, holds_allocTree t e⟩
  unfold buildH
  rw [hf]
  rfl

theorem buildH_ub {st : HSt} {f : Drv → Res (TNode × Drv)} (hf : f st.drv = .ub) : buildH f st = .ub := by
  unfold buildH
  rw [hf]
  rfl

/-- The outcome of an action that builds a tree from the words `Q` leaves. -/
def TreeSim (r : Res (TNode × Drv)) (root : Option Nat) (Q : Items) (L : Loss) (o : Res (Option (HVal × HSt))) : Prop :=
  (∀ t d', r = .ok (t, d') → ∃ w h', o = .ok (some (w, ⟨h', d', root⟩)) ∧ Holds h' ((.tree t, w) :: Q) L) ∧
    (r = .ub → o = .ub)

theorem cmpH_sim {f : Drv → Bytes → UInteger → Res (TNode × Drv)} {st : HSt} {n : UInteger} {s : Bytes} {wn w0 ws : HVal}
    {Q : Items} {L : Loss} (e : Holds st.heap ((.num n, wn) :: (.none, w0) :: (.str s, ws) :: Q) L) :
    TreeSim (f st.drv s n) st.root Q L (cmpH f [wn, w0, ws] st) := by
  obtain ⟨ln, -⟩ := holds_num e
  have e' := (holds_none.mp e.at1).at1
  obtain ⟨ls, -⟩ := holds_str e'
  constructor
  · intro t d' hf
    obtain ⟨w, h1, b1, e1⟩ := buildH_ok (f := fun d => f d s n) hf e'
    obtain ⟨-, h2, b2, e2⟩ := holds_str e1.at1
    obtain ⟨-, h3, b3, e3⟩ := holds_num e2.at1
    refine ⟨w, h3, ?_, e3⟩
    simp only [cmpH, ls, ln, Res.ok_bind, b1, b2, b3]
  · intro hf
    simp only [cmpH, ls, ln, Res.ok_bind, buildH_ub (f := fun d => f d s n) hf]
    rfl

theorem rangeH_sim {f : Drv → Bytes → UInteger → UInteger → Res (TNode × Drv)} {st : HSt} {lo hi : UInteger} {s : Bytes}
    {wl wh w0 w1 w2 w3 ws : HVal} {Q : Items} {L : Loss}
    (e : Holds st.heap ((.none, w0) :: (.num hi, wh) :: (.none, w1) :: (.num lo, wl) :: (.none, w2) :: (.none, w3) ::
      (.str s, ws) :: Q) L) :
    TreeSim (f st.drv s lo hi) st.root Q L (rangeH f [w0, wh, w1, wl, w2, w3, ws] st) := by
  have a1 := holds_none.mp e
  have a2 := (holds_none.mp a1.at1).at1
  have a3 : Holds st.heap ((.num lo, wl) :: (.num hi, wh) :: (.str s, ws) :: Q) L :=
    (holds_none.mp (holds_none.mp a2.at2).at2)
  obtain ⟨llo, -⟩ := holds_num a3
  obtain ⟨lhi, -⟩ := holds_num a3.at1
  obtain ⟨ls, -⟩ := holds_str a3.at2
  constructor
  · intro t d' hf
    obtain ⟨w, h1, b1, e1⟩ := buildH_ok (f := fun d => f d s lo hi) hf a3
    obtain ⟨-, h2, b2, e2⟩ := holds_str e1.at3
    obtain ⟨-, h3, b3, e3⟩ := holds_num e2.at1
    obtain ⟨-, h4, b4, e4⟩ := holds_num e3.at1
    refine ⟨w, h4, ?_, e4⟩
    simp only [rangeH, ls, llo, lhi, Res.ok_bind, b1, b2, b3, b4]
  · intro hf
    simp only [rangeH, ls, llo, lhi, Res.ok_bind, buildH_ub (f := fun d => f d s lo hi) hf]
    rfl

theorem dateH_sim {f : Drv → Bytes → UInteger → UInteger → UInteger → Res (TNode × Drv)} {st : HSt} {y dd : UInteger}
    {m s : Bytes} {wy wd wm ws w0 w1 : HVal} {Q : Items} {L : Loss}
    (e : Holds st.heap ((.num y, wy) :: (.none, w0) :: (.num dd, wd) :: (.str m, wm) :: (.none, w1) :: (.str s, ws) :: Q) L) :
    TreeSim (f st.drv s (getMonth m) dd y) st.root Q L (dateH f [wy, w0, wd, wm, w1, ws] st) := by
  have a1 := (holds_none.mp e.at1)
  have a2 : Holds st.heap ((.num y, wy) :: (.num dd, wd) :: (.str m, wm) :: (.str s, ws) :: Q) L := holds_none.mp a1.at3
  obtain ⟨lm, -⟩ := holds_str a2.at2
  have a3 := holds_alloc (v := .num (getMonth m)) (o := .num (getMonth m)) rfl a2
  obtain ⟨lmm, -⟩ := holds_num a3
  obtain ⟨ly, -⟩ := holds_num a3.at1
  obtain ⟨ld, -⟩ := holds_num a3.at2
  obtain ⟨ls, -⟩ := holds_str a3.at4
  constructor
  · intro t d' hf
    obtain ⟨w, h1, b1, e1⟩ := buildH_ok (st := { st with heap := (st.heap.alloc (.num (getMonth m))).2 })
      (f := fun d => f d s (getMonth m) dd y) hf a3
    have e1' := e1.at4
    obtain ⟨-, h2, b2, e2⟩ := holds_str (e1'.perm (List.perm_middle (l₁ := [_, _, _, _, _]) (l₂ := Q)))
    obtain ⟨-, h3, b3, e3⟩ := holds_str e2
    obtain ⟨-, h4, b4, e4⟩ := holds_num e3.at3
    obtain ⟨-, h5, b5, e5⟩ := holds_num e4.at2
    obtain ⟨-, h6, b6, e6⟩ := holds_num e5.at1
    refine ⟨w, h6, ?_, e6⟩
    simp only [dateH, lm, ls, lmm, ld, ly, Res.ok_bind, b1, b2, b3, b4, b5, b6]
  · intro hf
    simp only [dateH, lm, ls, lmm, ld, ly, Res.ok_bind]
    rw [buildH_ub (st := { st with heap := (st.heap.alloc (.num (getMonth m))).2 }) (f := fun d => f d s (getMonth m) dd y) hf]
    rfl

theorem rangeDateH_sim {mk : Mktime} {st : HSt} {y d1 d2 : UInteger} {m s : Bytes} {wy w1 w2 wm ws v0 v1 v2 : HVal}
    {Q : Items} {L : Loss}
    (e : Holds st.heap ((.num y, wy) :: (.none, v0) :: (.num d2, w2) :: (.none, v1) :: (.num d1, w1) :: (.str m, wm) ::
      (.none, v2) :: (.str s, ws) :: Q) L) :
    TreeSim (rangeDate mk st.drv s (getMonth m) d1 d2 y) st.root Q L
      (rangeDateH mk [wy, v0, w2, v1, w1, wm, v2, ws] st) := by
  have a1 := (holds_none.mp e.at1)
  have a2 := (holds_none.mp a1.at2)
  have a3 : Holds st.heap ((.num y, wy) :: (.num d2, w2) :: (.num d1, w1) :: (.str m, wm) :: (.str s, ws) :: Q) L := by
    have := holds_none.mp a2.at4
    exact this.at1.at1
  obtain ⟨lm, -⟩ := holds_str a3.at3
  have a4 := holds_alloc (v := .num (getMonth m)) (o := .num (getMonth m)) rfl a3
  obtain ⟨lmm, -⟩ := holds_num a4
  obtain ⟨ly, -⟩ := holds_num a4.at1
  obtain ⟨l2, -⟩ := holds_num a4.at2
  obtain ⟨l1, -⟩ := holds_num a4.at3
  obtain ⟨ls, -⟩ := holds_str (a4.perm (List.perm_middle (l₁ := [_, _, _, _, _]) (l₂ := Q)))
  constructor
  · intro t d' hf
    obtain ⟨w, h1, b1, e1⟩ := buildH_ok (st := { st with heap := (st.heap.alloc (.num (getMonth m))).2 })
      (f := fun d => rangeDate mk d s (getMonth m) d1 d2 y) hf a4
    obtain ⟨-, h2, b2, e2⟩ := holds_str (e1.perm (List.perm_middle (l₁ := [_, _, _, _, _, _]) (l₂ := Q)))
    obtain ⟨-, h3, b3, e3⟩ := holds_str (e2.perm (List.perm_middle (l₁ := [_, _, _, _, _]) (l₂ := Q)))
    obtain ⟨-, h4, b4, e4⟩ := holds_num e3.at4
    obtain ⟨-, h5, b5, e5⟩ := holds_num e4.at3
    obtain ⟨-, h6, b6, e6⟩ := holds_num e5.at2
    obtain ⟨-, h7, b7, e7⟩ := holds_num e6.at1
    refine ⟨w, h7, ?_, e7⟩
    simp only [rangeDateH, lm, ls, lmm, l1, l2, ly, Res.ok_bind, b1, b2, b3, b4, b5, b6, b7]
  · intro hf
    simp only [rangeDateH, lm, ls, lmm, l1, l2, ly, Res.ok_bind]
    rw [buildH_ub (st := { st with heap := (st.heap.alloc (.num (getMonth m))).2 })
      (f := fun d => rangeDate mk d s (getMonth m) d1 d2 y) hf]
    rfl

theorem attrDateH_sim {mk : Mktime} {st : HSt} {y dd : UInteger}
    {m s : Bytes} {wy wd wm ws w0 w1 : HVal} {Q : Items} {L : Loss}
    (e : Holds st.heap ((.num y, wy) :: (.none, w0) :: (.num dd, wd) :: (.str m, wm) :: (.none, w1) :: (.str s, ws) :: Q) L) :
    ∃ w h', attrDateH mk [wy, w0, wd, wm, w1, ws] st =
        .ok (some (w, ⟨h', (setDateAttr mk st.drv s m (getMonth m) dd y).2, st.root⟩)) ∧
      Holds h' ((.attrs (some (setDateAttr mk st.drv s m (getMonth m) dd y).1), w) :: Q) L := by
  have a1 := (holds_none.mp e.at1)
  have a2 : Holds st.heap ((.num y, wy) :: (.num dd, wd) :: (.str m, wm) :: (.str s, ws) :: Q) L := holds_none.mp a1.at3
  obtain ⟨lm, -⟩ := holds_str a2.at2
  have a3 := holds_alloc (v := .num (getMonth m)) (o := .num (getMonth m)) rfl a2
  obtain ⟨lmm, -⟩ := holds_num a3
  obtain ⟨ly, -⟩ := holds_num a3.at1
  obtain ⟨ld, -⟩ := holds_num a3.at2
  obtain ⟨ls, -⟩ := holds_str a3.at4
  have e1 := holds_alloc (v := .attrs (some (setDateAttr mk st.drv s m (getMonth m) dd y).1))
    (o := .vec (setDateAttr mk st.drv s m (getMonth m) dd y).1) rfl a3
  obtain ⟨-, h2, b2, e2⟩ := holds_str (e1.at4.perm (List.perm_middle (l₁ := [_, _, _, _, _]) (l₂ := Q)))
  obtain ⟨-, h3, b3, e3⟩ := holds_str e2
  obtain ⟨-, h4, b4, e4⟩ := holds_num e3.at3
  obtain ⟨-, h5, b5, e5⟩ := holds_num e4.at2
  obtain ⟨-, h6, b6, e6⟩ := holds_num e5.at1
  refine ⟨_, h6, ?_, e6⟩
  simp only [attrDateH, lm, ls, lmm, ld, ly, Res.ok_bind, b2, b3, b4, b5, b6]

theorem attrNumH_sim {st : HSt} {n : UInteger} {s : Bytes} {wn w0 ws : HVal}
    {Q : Items} {L : Loss} (e : Holds st.heap ((.num n, wn) :: (.none, w0) :: (.str s, ws) :: Q) L) :
    ∃ w h', attrNumH [wn, w0, ws] st = .ok (some (w, ⟨h', (attrNum st.drv s n).2, st.root⟩)) ∧
      Holds h' ((.attrs (some (attrNum st.drv s n).1), w) :: Q) L := by
  obtain ⟨ln, -⟩ := holds_num e
  have e' := (holds_none.mp e.at1).at1
  obtain ⟨ls, -⟩ := holds_str e'
  have e1 := holds_alloc (v := .attrs (some (attrNum st.drv s n).1)) (o := .vec (attrNum st.drv s n).1) rfl e'
  obtain ⟨-, h2, b2, e2⟩ := holds_str e1.at1
  obtain ⟨-, h3, b3, e3⟩ := holds_num e2.at1
  refine ⟨_, h3, ?_, e3⟩
  simp only [attrNumH, ls, ln, Res.ok_bind, b2, b3]

theorem leafAttrH_sim {st : HSt} {s : Bytes} {ws : HVal} {Q : Items} {L : Loss}
    (e : Holds st.heap ((.str s, ws) :: Q) L) :
    (∀ l d', leafAttr st.drv s = .ok (l, d') → ∃ w h', leafAttrH [ws] st = .ok (some (w, ⟨h', d', st.root⟩)) ∧
      Holds h' ((.attrs l, w) :: Q) L) ∧ (leafAttr st.drv s = .ub → leafAttrH [ws] st = .ub) := by
  obtain ⟨ls, h1, b1, e1⟩ := holds_str e
  constructor
  · intro l d' hf
    cases l with
    | none =>
      refine ⟨.null, h1, ?_, holds_null.mpr ⟨rfl, e1⟩⟩
      simp only [leafAttrH, ls, hf, Res.ok_bind, b1]
    | some l =>
      have e2 := holds_alloc (v := .attrs (some l)) (o := .vec l) rfl e
      obtain ⟨-, h3, b3, e3⟩ := holds_str e2.at1
      refine ⟨_, h3, ?_, e3⟩
      simp only [leafAttrH, ls, hf, Res.ok_bind, b3]
  · intro hf
    simp only [leafAttrH, ls, hf, Res.ok_bind]
    rfl

theorem concatH_one {st : HSt} {l : Option (List Bytes)} {w : HVal} {Q : Items} {L : Loss}
    (e : Holds st.heap ((.attrs l, w) :: Q) L) : ∃ w' h', concatH st w .null = .ok (w', { st with heap := h' }) ∧
      Holds h' ((.attrs (concatAttr l none), w') :: Q) L := by
  cases l with
  | none =>
    obtain ⟨rfl, e1⟩ := holds_null.mp e
    exact ⟨_, _, rfl, holds_alloc (v := .attrs (some [])) (o := .vec []) rfl e1⟩
  | some l =>
    obtain ⟨a, rfl, -⟩ := holds_cell (v := .attrs (some l)) (o := .vec l) rfl e
    refine ⟨_, _, rfl, ?_⟩
    have : concatAttr (some l) none = some l := by simp [concatAttr]
    rw [this]; exact e

theorem concatH_two {st : HSt} {l r : Option (List Bytes)} {wl wr : HVal} {Q : Items} {L : Loss}
    (e : Holds st.heap ((.attrs l, wl) :: (.attrs r, wr) :: Q) L) : ∃ w' h', concatH st wl wr = .ok (w', { st with heap := h' }) ∧
      Holds h' ((.attrs (concatAttr l r), w') :: (.attrs r, wr) :: Q) L := by
  cases r with
  | none =>
    obtain ⟨rfl, -⟩ := holds_null.mp e.at1
    exact concatH_one e
  | some r =>
    obtain ⟨b, rfl, hb, -⟩ := holds_cell (v := .attrs (some r)) (o := .vec r) rfl e.at1
    cases l with
    | none =>
      obtain ⟨rfl, e1⟩ := holds_null.mp e
      have e2 := holds_alloc (v := .attrs (some [])) (o := .vec []) rfl e1
      obtain ⟨l1, -⟩ := holds_vec e2
      obtain ⟨l2, -⟩ := holds_vec e2.at1
      obtain ⟨a, ha, -, -, e3⟩ := holds_cell (v := .attrs (some [])) (o := .vec []) rfl e2
      have ha' : (st.heap.alloc (.vec [])).1 = a := by cases ha; rfl
      subst ha'
      refine ⟨_, _, ?_, e3 (.attrs (concatAttr none (some r))) (.vec ([] ++ r)) (by simp [Cell, concatAttr])⟩
      simp only [concatH, l2, l1, Res.ok_bind]
    | some l =>
      obtain ⟨a, rfl, -, -, e3⟩ := holds_cell (v := .attrs (some l)) (o := .vec l) rfl e
      obtain ⟨l1, -⟩ := holds_vec e
      obtain ⟨l2, -⟩ := holds_vec e.at1
      refine ⟨_, _, ?_, e3 (.attrs (concatAttr (some l) (some r))) (.vec (l ++ r)) (by simp [Cell, concatAttr])⟩
      simp only [concatH, l2, l1, Res.ok_bind]

/-! ### Reductions -/

/-- The kind of value that a symbol has. -/
def Sh (x : Nat) (v : SVal) : Prop :=
  match x with
  | 4 => ∃ s, v = .str s
  | 5 => ∃ n, v = .uint n
  | 33 => ∃ n, v = .num n
  | 34 => ∃ t, v = .tree t
  | 35 => ∃ l, v = .attrs l
  | _ => v = .none

theorem symOk_sh {x : Nat} {v : SVal} {seg : List Tok} (h : SymOk x v seg) (hx : x ≠ 0) : Sh x v := by
  cases h with
  | leaf h => exact ⟨_, rfl⟩
  | uint h => exact ⟨_, rfl⟩
  | @fixed _ t h =>
    have : x ≠ 4 ∧ x ≠ 5 ∧ x ≠ 33 ∧ x ≠ 34 ∧ x ≠ 35 := by
      refine ⟨?_, ?_, ?_, ?_, ?_⟩ <;> (rintro rfl; simp [tokOf] at h)
    unfold Sh; split <;> simp_all
  | eofNone => exact absurd rfl hx
  | eofTok h => exact absurd rfl hx
  | num h h' => exact ⟨_, rfl⟩
  | pol h => exact ⟨_, rfl⟩
  | item h => exact ⟨_, rfl⟩
  | list h h' => exact ⟨_, rfl⟩
  | startP h => rfl
  | startA h h' => rfl

/-- The words of the right-hand side have the kinds of its symbols. -/
def Shs : List Nat → Items → Prop
  | [], P => P = []
  | x :: xs, P => ∃ v w P', P = (v, w) :: P' ∧ Sh x v ∧ Shs xs P'

/-- The policy's tree. -/
def RootRel (d : Drv) (root : Option Nat) (R : Items) : Prop :=
  (d.policy = none ∧ root = none ∧ R = []) ∨
    ∃ p t a, d.policy = some p ∧ p.root = some t ∧ root = some a ∧ R = [(.tree t, .ptr a)]

theorem strip_none {d : Drv} (h : d.policy = none) : strip d = d := by
  unfold strip; cases d; simp_all

/-- The action on words does what the action on values does. -/
structure ActSim (mk : Mktime) (r : Nat) (P Q : Items) (L : Loss) (d : Drv) (st : HSt) : Prop where
  ok : ∀ v d', act mk r (P.map Prod.fst) d = .ok (some (v, d')) →
    ∃ w st' R, hAct mk r (P.map Prod.snd) st = .ok (some (w, st')) ∧
      (r ≠ 2 → st'.drv = d' ∧ st'.root = none ∧ R = []) ∧
      (r = 2 → st'.drv = strip d' ∧ RootRel d' st'.root R) ∧ Holds st'.heap ((v, w) :: (R ++ Q)) L
  err : act mk r (P.map Prod.fst) d = .ok none → hAct mk r (P.map Prod.snd) st = .ok none ∧ Holds st.heap Q L
  ub : act mk r (P.map Prod.fst) d = .ub → hAct mk r (P.map Prod.snd) st = .ub

theorem actSim_tree {mk : Mktime} {r : Nat} {P Q : Items} {L : Loss} {d : Drv} {st : HSt} {R : Res (TNode × Drv)}
    (h2 : r ≠ 2) (hroot : st.root = none) (hact : act mk r (P.map Prod.fst) d = treeAct R)
    (hs : TreeSim R st.root Q L (hAct mk r (P.map Prod.snd) st)) : ActSim mk r P Q L d st := by
  obtain ⟨s1, s2⟩ := hs
  cases R with
  | ok x =>
    obtain ⟨t, d0⟩ := x
    obtain ⟨w, h', e1, e2⟩ := s1 t d0 rfl
    have e0 : act mk r (P.map Prod.fst) d = .ok (some (.tree t, d0)) := by rw [hact]; rfl
    refine ⟨?_, ?_, ?_⟩
    · intro v d' h
      rw [e0] at h
      cases h
      exact ⟨w, _, [], e1, fun _ => ⟨rfl, hroot, rfl⟩, fun h => absurd h h2, e2⟩
    · intro h; rw [e0] at h; cases h
    · intro h; rw [e0] at h; cases h
  | throw e =>
    have e0 : act mk r (P.map Prod.fst) d = .throw e := by rw [hact]; rfl
    exact ⟨fun _ _ h => (by rw [e0] at h; cases h), fun h => (by rw [e0] at h; cases h), fun h => (by rw [e0] at h; cases h)⟩
  | ub =>
    have e0 : act mk r (P.map Prod.fst) d = .ub := by rw [hact]; rfl
    refine ⟨?_, ?_, fun _ => s2 rfl⟩
    · intro v d' h; rw [e0] at h; cases h
    · intro h; rw [e0] at h; cases h
  | abort =>
    have e0 : act mk r (P.map Prod.fst) d = .abort := by rw [hact]; rfl
    exact ⟨fun _ _ h => (by rw [e0] at h; cases h), fun h => (by rw [e0] at h; cases h), fun h => (by rw [e0] at h; cases h)⟩

theorem actSim_ok {mk : Mktime} {r : Nat} {P Q : Items} {L : Loss} {d : Drv} {st : HSt} {v : SVal} {d' : Drv} {w : HVal}
    {st' : HSt} (h2 : r ≠ 2) (hact : act mk r (P.map Prod.fst) d = .ok (some (v, d')))
    (hh : hAct mk r (P.map Prod.snd) st = .ok (some (w, st'))) (hd : st'.drv = d') (hroot : st'.root = none)
    (e : Holds st'.heap ((v, w) :: Q) L) : ActSim mk r P Q L d st := by
  refine ⟨?_, ?_, ?_⟩
  · intro v1 d1 h
    rw [hact] at h; cases h
    exact ⟨w, st', [], hh, fun _ => ⟨hd, hroot, rfl⟩, fun h => absurd h h2, e⟩
  · intro h; rw [hact] at h; cases h
  · intro h; rw [hact] at h; cases h

theorem act_sim {mk : Mktime} {r : Nat} (h2 : 2 ≤ r) (h28 : r ≤ 28) {P Q : Items} {L : Loss} {st : HSt}
    (hroot : st.root = none) (hs : Shs (rhsRev r) P) (e : Holds st.heap (P ++ Q) L) :
    ActSim mk r P Q L st.drv st := by
  have gate : ∀ (r k : Nat) (x : Nat) (P : Items), r ≠ 2 → rhsRev r = [34, x, 34] → Sh x = (· = SVal.none) →
      (∀ v : List HVal, hAct mk r v st = match v with
        | [r, _, l] => do
          let x ← kof2H k st l r
          .ok (some x)
        | _ => .ub) → (∀ v d, act mk r v d = actGate k v d) → (k = 1 ∨ k = 2) →
      Shs (rhsRev r) P → Holds st.heap (P ++ Q) L → ActSim mk r P Q L st.drv st := by
    intro r k x P hr hrhs hx hh ha hk hs e
    rw [hrhs] at hs
    obtain ⟨_, w1, _, rfl, ⟨t1, rfl⟩, _, w2, _, rfl, hv2, _, w3, _, rfl, ⟨t3, rfl⟩, rfl⟩ := hs
    rw [hx] at hv2; subst hv2
    have e' : Holds st.heap ((.tree t3, w3) :: (.tree t1, w1) :: Q) L := holds_none.mp e.at2.at2
    rcases hk with rfl | rfl
    · obtain ⟨a, b, rfl, rfl, e2⟩ := holds_gate {} .or 1 e'
      exact actSim_ok (v := .tree (kof2 1 t3 t1)) hr (ha _ _) (hh _) rfl hroot e2
    · obtain ⟨a, b, rfl, rfl, e2⟩ := holds_gate {} .and 2 e'
      exact actSim_ok (v := .tree (kof2 2 t3 t1)) hr (ha _ _) (hh _) rfl hroot e2
  have cmp : ∀ (r x : Nat) (f : Drv → Bytes → UInteger → Res (TNode × Drv)) (P : Items), r ≠ 2 → rhsRev r = [33, x, 4] →
      Sh x = (· = SVal.none) → (∀ v, hAct mk r v st = cmpH f v st) → (∀ v d, act mk r v d = actCmp f v d) →
      Shs (rhsRev r) P → Holds st.heap (P ++ Q) L → ActSim mk r P Q L st.drv st := by
    intro r x f P hr hrhs hx hh ha hs e
    rw [hrhs] at hs
    obtain ⟨_, w1, _, rfl, ⟨n, rfl⟩, _, w2, _, rfl, hv2, _, w3, _, rfl, ⟨s, rfl⟩, rfl⟩ := hs
    rw [hx] at hv2; subst hv2
    refine actSim_tree (R := f st.drv s n) hr hroot (ha _ _) ?_
    rw [hh]
    exact cmpH_sim e
  have range : ∀ (r x1 x2 x3 x4 : Nat) (f : Drv → Bytes → UInteger → UInteger → Res (TNode × Drv)) (P : Items), r ≠ 2 →
      rhsRev r = [x1, 33, x2, 33, x3, x4, 4] →
      Sh x1 = (· = SVal.none) → Sh x2 = (· = SVal.none) → Sh x3 = (· = SVal.none) → Sh x4 = (· = SVal.none) →
      (∀ v, hAct mk r v st = rangeH f v st) → (∀ v d, act mk r v d = actRange f v d) →
      Shs (rhsRev r) P → Holds st.heap (P ++ Q) L → ActSim mk r P Q L st.drv st := by
    intro r x1 x2 x3 x4 f P hr hrhs hx1 hx2 hx3 hx4 hh ha hs e
    rw [hrhs] at hs
    obtain ⟨_, w1, _, rfl, hv1, _, w2, _, rfl, ⟨hi, rfl⟩, _, w3, _, rfl, hv3, _, w4, _, rfl, ⟨lo, rfl⟩, _, w5, _, rfl, hv5,
      _, w6, _, rfl, hv6, _, w7, _, rfl, ⟨s, rfl⟩, rfl⟩ := hs
    rw [hx1] at hv1; rw [hx2] at hv3; rw [hx3] at hv5; rw [hx4] at hv6
    subst hv1 hv3 hv5 hv6
    refine actSim_tree (R := f st.drv s lo hi) hr hroot (ha _ _) ?_
    rw [hh]
    exact rangeH_sim e
  have date : ∀ (r x : Nat) (f : Drv → Bytes → UInteger → UInteger → UInteger → Res (TNode × Drv)) (P : Items), r ≠ 2 →
      rhsRev r = [33, 29, 33, 4, x, 4] → Sh x = (· = SVal.none) →
      (∀ v, hAct mk r v st = dateH f v st) → (∀ v d, act mk r v d = actDate f v d) →
      Shs (rhsRev r) P → Holds st.heap (P ++ Q) L → ActSim mk r P Q L st.drv st := by
    intro r x f P hr hrhs hx hh ha hs e
    rw [hrhs] at hs
    obtain ⟨_, w1, _, rfl, ⟨y, rfl⟩, _, w2, _, rfl, hv2, _, w3, _, rfl, ⟨dd, rfl⟩, _, w4, _, rfl, ⟨m, rfl⟩, _, w5, _, rfl, hv5,
      _, w6, _, rfl, ⟨s, rfl⟩, rfl⟩ := hs
    rw [hx] at hv5
    have hv2 : _ = SVal.none := hv2
    subst hv2 hv5
    refine actSim_tree (R := f st.drv s (getMonth m) dd y) hr hroot (ha _ _) ?_
    rw [hh]
    exact dateH_sim e
  interval_cases r
  · -- rule 2
    obtain ⟨_, w1, _, rfl, ⟨t, rfl⟩, _, w2, _, rfl, hv2, rfl⟩ := hs
    have hv2 : _ = SVal.none := hv2
    subst hv2
    have e' : Holds st.heap ((.none, w2) :: (.tree t, w1) :: Q) L := e.at1
    obtain ⟨_, ⟨_, _, _, ⟨_, _, ⟨a, rfl, _⟩, _⟩, _⟩, _⟩ := id e'
    refine ⟨?_, ?_, ?_⟩
    · intro v d' h
      cases h
      refine ⟨w2, ⟨st.heap, strip (setPolicy st.drv t), some a⟩, [(.tree t, .ptr a)], ?_, fun h => absurd rfl h, ?_, e'⟩
      · simp only [hAct, List.map_cons, List.map_nil, setPolicyH, hroot, Res.ok_bind]
        rfl
      · exact fun _ => ⟨rfl, Or.inr ⟨_, t, a, rfl, rfl, rfl, rfl⟩⟩
    · intro h; cases h
    · intro h; cases h
  · -- rule 3
    obtain ⟨_, w1, _, rfl, ⟨l, rfl⟩, _, w2, _, rfl, hv2, rfl⟩ := hs
    have hv2 : _ = SVal.none := hv2
    subst hv2
    cases l with
    | none =>
      obtain ⟨rfl, -⟩ := holds_null.mp e
      refine ⟨?_, ?_, fun _ => rfl⟩
      · intro v d' h; cases h
      · intro h; cases h
    | some l =>
      obtain ⟨l1, h1, d1, e1⟩ := holds_vec e
      refine actSim_ok (v := .none) (d' := { st.drv with attrs := some { attrs := l, orig := st.drv.orig, prefixes := st.drv.attrPrefix } }) (by decide) rfl (w := w2)
        (st' := ⟨h1, { st.drv with attrs := some { attrs := l, orig := st.drv.orig, prefixes := st.drv.attrPrefix } }, st.root⟩) ?_ rfl hroot e1
      simp only [hAct, List.map_cons, List.map_nil, setAttrlistH, l1, d1, setAttrlist, Res.ok_bind]
  · -- rule 4
    obtain ⟨_, w1, _, rfl, ⟨b, rfl⟩, _, w2, _, rfl, hv2, _, w3, _, rfl, ⟨n, rfl⟩, rfl⟩ := hs
    have hv2 : _ = SVal.none := hv2
    subst hv2
    obtain ⟨rfl, e1⟩ := holds_uint.mp e
    obtain ⟨rfl, e2⟩ := holds_uint.mp (holds_none.mp e1)
    by_cases hv : checkValidBit n b = true
    · refine actSim_ok (v := .num (createExpint n b)) (d' := st.drv) (w := .ptr (st.heap.alloc (.num (createExpint n b))).1)
        (st' := { st with heap := (st.heap.alloc (.num (createExpint n b))).2 }) (by decide) ?_ ?_ rfl hroot
        (holds_alloc (v := .num (createExpint n b)) (o := .num (createExpint n b)) rfl e2)
      · simp only [act, List.map_cons, List.map_nil, if_pos hv]
      · simp only [hAct, List.map_cons, List.map_nil, loadUint, Res.ok_bind, if_pos hv]
    · have ha : act mk 4 (List.map Prod.fst [(SVal.uint b, HVal.uint b), (SVal.none, w2), (SVal.uint n, HVal.uint n)]) st.drv =
          .ok none := by
        simp only [act, List.map_cons, List.map_nil, if_neg hv]
      refine ⟨?_, ?_, ?_⟩
      · intro v d' h; rw [ha] at h; cases h
      · intro _
        exact ⟨by simp only [hAct, List.map_cons, List.map_nil, loadUint, Res.ok_bind, if_neg hv], e2⟩
      · intro h; rw [ha] at h; cases h
  · -- rule 5
    obtain ⟨_, w1, _, rfl, ⟨n, rfl⟩, rfl⟩ := hs
    obtain ⟨rfl, e1⟩ := holds_uint.mp e
    exact actSim_ok (v := .num (createFlexint n)) (d' := st.drv) (by decide) rfl rfl rfl hroot
      (holds_alloc (v := .num (createFlexint n)) (o := .num (createFlexint n)) rfl e1)
  · -- rule 6
    obtain ⟨_, w1, _, rfl, ⟨s, rfl⟩, rfl⟩ := hs
    refine actSim_tree (R := leafNode st.drv s) (by decide) hroot rfl ?_
    obtain ⟨ls, -⟩ := holds_str e
    constructor
    · intro t d' hf
      obtain ⟨w, h1, b1, e1⟩ := buildH_ok (f := fun d => leafNode d s) hf e
      obtain ⟨-, h2, b2, e2⟩ := holds_str e1.at1
      refine ⟨w, h2, ?_, e2⟩
      simp only [hAct, List.map_cons, List.map_nil, ls, Res.ok_bind, b1, b2]
    · intro hf
      simp only [hAct, List.map_cons, List.map_nil, ls, Res.ok_bind, buildH_ub (f := fun d => leafNode d s) hf]
      rfl
  · exact gate 7 1 9 P (by decide) rfl rfl (fun _ => rfl) (fun _ _ => rfl) (Or.inl rfl) hs e
  · exact gate 8 2 10 P (by decide) rfl rfl (fun _ => rfl) (fun _ _ => rfl) (Or.inr rfl) hs e
  · exact cmp 9 21 ltPolicy P (by decide) rfl rfl (fun _ => rfl) (fun _ _ => rfl) hs e
  · exact cmp 10 22 gtPolicy P (by decide) rfl rfl (fun _ => rfl) (fun _ _ => rfl) hs e
  · exact cmp 11 14 lePolicy P (by decide) rfl rfl (fun _ => rfl) (fun _ _ => rfl) hs e
  · exact cmp 12 15 gePolicy P (by decide) rfl rfl (fun _ => rfl) (fun _ _ => rfl) hs e
  · exact cmp 13 12 eqPolicy P (by decide) rfl rfl (fun _ => rfl) (fun _ _ => rfl) hs e
  · -- rule 14
    obtain ⟨_, w1, _, rfl, hv1, _, w2, _, rfl, ⟨t, rfl⟩, _, w3, _, rfl, hv3, rfl⟩ := hs
    have hv1 : _ = SVal.none := hv1
    have hv3 : _ = SVal.none := hv3
    subst hv1 hv3
    exact actSim_ok (v := .tree t) (d' := st.drv) (by decide) rfl rfl rfl hroot (holds_none.mp (holds_none.mp e).at1)
  · exact range 15 24 25 23 19 rangePolicy P (by decide) rfl rfl rfl rfl rfl (fun _ => rfl) (fun _ _ => rfl) hs e
  · exact range 16 27 25 26 19 rangeInclPolicy P (by decide) rfl rfl rfl rfl rfl (fun _ => rfl) (fun _ _ => rfl) hs e
  · exact date 17 28 (eqDate mk) P (by decide) rfl rfl (fun _ => rfl) (fun _ _ => rfl) hs e
  · -- rule 18
    obtain ⟨_, w1, _, rfl, ⟨y, rfl⟩, _, w2, _, rfl, hv2, _, w3, _, rfl, ⟨d2, rfl⟩, _, w4, _, rfl, hv4, _, w5, _, rfl, ⟨d1, rfl⟩,
      _, w6, _, rfl, ⟨m, rfl⟩, _, w7, _, rfl, hv7, _, w8, _, rfl, ⟨s, rfl⟩, rfl⟩ := hs
    have hv2 : _ = SVal.none := hv2
    have hv4 : _ = SVal.none := hv4
    have hv7 : _ = SVal.none := hv7
    subst hv2 hv4 hv7
    exact actSim_tree (R := rangeDate mk st.drv s (getMonth m) d1 d2 y) (by decide) hroot rfl (rangeDateH_sim e)
  · exact date 19 22 (gtDate mk) P (by decide) rfl rfl (fun _ => rfl) (fun _ _ => rfl) hs e
  · exact date 20 21 (ltDate mk) P (by decide) rfl rfl (fun _ => rfl) (fun _ _ => rfl) hs e
  · exact date 21 15 (geDate mk) P (by decide) rfl rfl (fun _ => rfl) (fun _ _ => rfl) hs e
  · exact date 22 14 (leDate mk) P (by decide) rfl rfl (fun _ => rfl) (fun _ _ => rfl) hs e
  · -- rule 23
    obtain ⟨_, w1, _, rfl, ⟨s, rfl⟩, rfl⟩ := hs
    obtain ⟨s1, s2⟩ := leafAttrH_sim e
    cases hl : leafAttr st.drv s with
    | ok x =>
      obtain ⟨l, d'⟩ := x
      obtain ⟨w, h', b1, e1⟩ := s1 l d' hl
      refine actSim_ok (v := .attrs l) (d' := d') (by decide) ?_ b1 rfl hroot e1
      simp only [act, List.map_cons, List.map_nil, hl, Res.ok_bind]
    | ub =>
      have ha : act mk 23 (List.map Prod.fst [(SVal.str s, w1)]) st.drv = .ub := by
        simp only [act, List.map_cons, List.map_nil, hl]; rfl
      refine ⟨?_, ?_, fun _ => s2 hl⟩
      · intro v d' h; rw [ha] at h; cases h
      · intro h; rw [ha] at h; cases h
    | throw x =>
      have ha : act mk 23 (List.map Prod.fst [(SVal.str s, w1)]) st.drv = .throw x := by
        simp only [act, List.map_cons, List.map_nil, hl]; rfl
      refine ⟨?_, ?_, ?_⟩
      · intro v d' h; rw [ha] at h; cases h
      · intro h; rw [ha] at h; cases h
      · intro h; rw [ha] at h; cases h
    | abort =>
      have ha : act mk 23 (List.map Prod.fst [(SVal.str s, w1)]) st.drv = .abort := by
        simp only [act, List.map_cons, List.map_nil, hl]; rfl
      refine ⟨?_, ?_, ?_⟩
      · intro v d' h; rw [ha] at h; cases h
      · intro h; rw [ha] at h; cases h
      · intro h; rw [ha] at h; cases h
  · -- rule 24
    obtain ⟨_, w1, _, rfl, ⟨l, rfl⟩, _, w2, _, rfl, hv2, rfl⟩ := hs
    have hv2 : _ = SVal.none := hv2
    subst hv2
    obtain ⟨w', h', b1, e1⟩ := concatH_one (holds_none.mp e.at1)
    refine actSim_ok (v := .attrs (concatAttr l none)) (d' := st.drv) (st' := { st with heap := h' }) (by decide) rfl ?_ rfl
      hroot e1
    simp only [hAct, List.map_cons, List.map_nil, b1, Res.ok_bind]
  · -- rule 25
    obtain ⟨_, w1, _, rfl, hv1, _, w2, _, rfl, ⟨l, rfl⟩, rfl⟩ := hs
    have hv1 : _ = SVal.none := hv1
    subst hv1
    obtain ⟨w', h', b1, e1⟩ := concatH_one (holds_none.mp e)
    refine actSim_ok (v := .attrs (concatAttr l none)) (d' := st.drv) (st' := { st with heap := h' }) (by decide) rfl ?_ rfl
      hroot e1
    simp only [hAct, List.map_cons, List.map_nil, b1, Res.ok_bind]
  · -- rule 26
    obtain ⟨_, w1, _, rfl, ⟨r, rfl⟩, _, w2, _, rfl, hv2, _, w3, _, rfl, ⟨l, rfl⟩, rfl⟩ := hs
    have hv2 : _ = SVal.none := hv2
    subst hv2
    have e' : Holds st.heap ((.attrs l, w3) :: (.attrs r, w1) :: Q) L := holds_none.mp e.at2.at2
    obtain ⟨w', h', b1, e1⟩ := concatH_two e'
    obtain ⟨h2, b2, e2⟩ : ∃ h2, delVec h' w1 = .ok h2 ∧ Holds h2 ((.attrs (concatAttr l r), w') :: Q) L := by
      cases r with
      | none =>
        obtain ⟨rfl, e3⟩ := holds_null.mp e1.at1
        exact ⟨h', rfl, e3⟩
      | some r =>
        obtain ⟨-, h2, b2, e2⟩ := holds_vec e1.at1
        exact ⟨h2, b2, e2⟩
    refine actSim_ok (v := .attrs (concatAttr l r)) (d' := st.drv) (st' := { st with heap := h2 }) (by decide) rfl ?_ rfl
      hroot e2
    simp only [hAct, List.map_cons, List.map_nil, b1, b2, Res.ok_bind]
  · -- rule 27
    obtain ⟨_, w1, _, rfl, ⟨n, rfl⟩, _, w2, _, rfl, hv2, _, w3, _, rfl, ⟨s, rfl⟩, rfl⟩ := hs
    have hv2 : _ = SVal.none := hv2
    subst hv2
    obtain ⟨w', h', b1, e1⟩ := attrNumH_sim e
    exact actSim_ok (by decide) rfl b1 rfl hroot e1
  · -- rule 28
    obtain ⟨_, w1, _, rfl, ⟨y, rfl⟩, _, w2, _, rfl, hv2, _, w3, _, rfl, ⟨dd, rfl⟩, _, w4, _, rfl, ⟨m, rfl⟩, _, w5, _, rfl, hv5,
      _, w6, _, rfl, ⟨s, rfl⟩, rfl⟩ := hs
    have hv2 : _ = SVal.none := hv2
    have hv5 : _ = SVal.none := hv5
    subst hv2 hv5
    obtain ⟨w', h', b1, e1⟩ := attrDateH_sim (mk := mk) e
    exact actSim_ok (by decide) rfl b1 rfl hroot e1

end PH
end Abe
