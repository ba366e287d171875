import Verif.Props.Container
import Verif.Props.Lists
import Verif.Props.Sym

set_option linter.unusedSimpArgs false
set_option linter.unusedSectionVars false
set_option autoImplicit false

/-! C150: what the comparisons answer. -/

namespace Abe
namespace Compare

variable {G1 G2 GT : Type} [DecidableEq G1] [DecidableEq G2] [DecidableEq GT]

/-- Components that compare as equal: equal integers (with their widths), exponents and elements, and any two attribute lists of
which the first is not empty. -/
def Alike : Obj G1 G2 GT → Obj G1 G2 GT → Prop
  | .int a, .int b => a = b
  | .zp a, .zp b => a = b
  | .g1 a, .g1 b => a = b
  | .g2 a, .g2 b => a = b
  | .gt a, .gt b => a = b
  | .attrs a, .attrs _ => a.attrs ≠ []
  | _, _ => False

/-- A list without attributes compared with a list. -/
def Bad : Obj G1 G2 GT → Obj G1 G2 GT → Prop
  | .attrs a, .attrs _ => a.attrs = []
  | _, _ => False

theorem isEqual_exact (a b : Obj G1 G2 GT) (ha : a ≠ .null) :
    (a.isEqual b = .ok true ∧ Alike a b ∧ ¬ Bad a b) ∨ (a.isEqual b = .ok false ∧ ¬ Alike a b ∧ ¬ Bad a b) ∨
    (a.isEqual b = .ub ∧ ¬ Alike a b ∧ Bad a b) := by
  cases a with
  | null => exact absurd rfl ha
  | attrs l =>
    cases b with
    | attrs m =>
      simp only [Obj.isEqual, C75_answer_partial, Alike, Bad]
      by_cases h : l.attrs = []
      · simp [h]
      · simp [h]
    | _ => simp [Obj.isEqual, Alike, Bad]
  | bytes x => cases b <;> simp [Obj.isEqual, Alike, Bad]
  | policy x => cases b <;> simp [Obj.isEqual, Alike, Bad]
  | int n =>
    cases b with
    | int m =>
      simp only [Obj.isEqual, Alike, Bad, Res.ok.injEq, not_false_iff, and_true, and_false, or_false, reduceCtorEq, false_and]
      cases n; cases m
      simp only [UInteger.mk.injEq, Bool.and_eq_true, Bool.and_eq_false_iff, beq_iff_eq, beq_eq_false_iff_ne]
      by_cases h1 : ‹UInt32› = ‹UInt32› <;> tauto
    | _ => simp [Obj.isEqual, Alike, Bad]
  | zp n =>
    cases b with
    | zp m => by_cases h : n = m <;> simp [Obj.isEqual, Alike, Bad, h]
    | _ => simp [Obj.isEqual, Alike, Bad]
  | g1 n =>
    cases b with
    | g1 m => by_cases h : n = m <;> simp [Obj.isEqual, Alike, Bad, h]
    | _ => simp [Obj.isEqual, Alike, Bad]
  | g2 n =>
    cases b with
    | g2 m => by_cases h : n = m <;> simp [Obj.isEqual, Alike, Bad, h]
    | _ => simp [Obj.isEqual, Alike, Bad]
  | gt n =>
    cases b with
    | gt m => by_cases h : n = m <;> simp [Obj.isEqual, Alike, Bad, h]
    | _ => simp [Obj.isEqual, Alike, Bad]

/-- Under the name there is a component, which is not a null pointer. -/
def Has (c : Container G1 G2 GT) (k : Bytes) (o : Obj G1 G2 GT) : Prop := SMap.find k c = some o ∧ o ≠ .null

theorem get_has {c : Container G1 G2 GT} {k : Bytes} {o : Obj G1 G2 GT} (h : Has c k o) : (Container.getComponent c k).1 = .ok o := by
  rw [C40_lookup_present_partial c k o h.1 h.2]

theorem get_none {c : Container G1 G2 GT} {k : Bytes} (h : ∀ o, ¬ Has c k o) : (Container.getComponent c k).1 = .throw .elementNotFound := by
  unfold Container.getComponent
  cases e : SMap.find k c with
  | none => rfl
  | some o =>
    cases o with
    | null => rfl
    | _ => exact absurd ⟨e, by simp⟩ (h _)

/-- What the loop over the names does: all can be compared and the number of different ones is counted, or the first name that
cannot be compared decides. -/
theorem loop_exact (c1 c2 : Container G1 G2 GT) : ∀ (ks : List Bytes) (n : Nat),
    (∃ d, Container.eqLoop c1 c2 ks n = .ok (n + d) ∧ (∀ k ∈ ks, ∃ o o', Has c1 k o ∧ Has c2 k o' ∧ ¬ Bad o o') ∧
      (d = 0 ↔ ∀ k ∈ ks, ∃ o o', Has c1 k o ∧ Has c2 k o' ∧ Alike o o')) ∨
    (∃ pre k post, ks = pre ++ k :: post ∧ (∀ j ∈ pre, ∃ o o', Has c1 j o ∧ Has c2 j o' ∧ ¬ Bad o o') ∧
      ((Container.eqLoop c1 c2 ks n = .ub ∧ ∃ o o', Has c1 k o ∧ Has c2 k o' ∧ Bad o o') ∨
       (Container.eqLoop c1 c2 ks n = .throw .elementNotFound ∧ ((∀ o, ¬ Has c1 k o) ∨ ∀ o, ¬ Has c2 k o)))) := by
  intro ks
  induction ks with
  | nil => intro n; exact Or.inl ⟨0, rfl, fun k h => absurd h List.not_mem_nil, by simp⟩
  | cons k ks ih =>
    intro n
    simp only [Container.eqLoop]
    by_cases h1 : ∃ o, Has c1 k o
    rotate_left
    · have h1 : ∀ o, ¬ Has c1 k o := fun o h => h1 ⟨o, h⟩
      rw [get_none h1]
      exact Or.inr ⟨[], k, ks, rfl, fun j h => absurd h List.not_mem_nil, Or.inr ⟨rfl, Or.inl h1⟩⟩
    by_cases h2 : ∃ o, Has c2 k o
    rotate_left
    · obtain ⟨o, h1⟩ := h1
      have h2 : ∀ o, ¬ Has c2 k o := fun o h => h2 ⟨o, h⟩
      rw [get_has h1, get_none h2]
      exact Or.inr ⟨[], k, ks, rfl, fun j h => absurd h List.not_mem_nil, Or.inr ⟨rfl, Or.inr h2⟩⟩
    obtain ⟨o, h1⟩ := h1
    obtain ⟨o', h2⟩ := h2
    rw [get_has h1, get_has h2, Res.ok_bind, Res.ok_bind]
    have uniq : ∀ {a b}, Has c1 k a → Has c2 k b → a = o ∧ b = o' := by
      intro a b ha hb
      have e1 := ha.1; have e2 := hb.1
      rw [h1.1] at e1; rw [h2.1] at e2
      cases e1; cases e2
      exact ⟨rfl, rfl⟩
    rcases isEqual_exact o o' h1.2 with ⟨e, ha, hb⟩ | ⟨e, ha, hb⟩ | ⟨e, -, hb⟩
    · rw [e, Res.ok_bind]
      rcases ih n with ⟨d, i1, i2, i3⟩ | ⟨pre, j, post, rfl, i2, i3⟩
      · refine Or.inl ⟨d, by simpa using i1, ?_, ?_⟩
        · intro j hj
          rcases List.mem_cons.mp hj with rfl | hj
          · exact ⟨o, o', h1, h2, hb⟩
          · exact i2 j hj
        · rw [i3]
          constructor
          · intro h j hj
            rcases List.mem_cons.mp hj with rfl | hj
            · exact ⟨o, o', h1, h2, ha⟩
            · exact h j hj
          · intro h j hj
            exact h j (List.mem_cons_of_mem _ hj)
      · refine Or.inr ⟨k :: pre, j, post, rfl, ?_, by simpa using i3⟩
        intro i hi
        rcases List.mem_cons.mp hi with rfl | hi
        · exact ⟨o, o', h1, h2, hb⟩
        · exact i2 i hi
    · rw [e, Res.ok_bind]
      rcases ih (n + 1) with ⟨d, i1, i2, i3⟩ | ⟨pre, j, post, rfl, i2, i3⟩
      · refine Or.inl ⟨d + 1, by simp only [Bool.false_eq_true, if_false]; rw [i1]; congr 1; omega, ?_, ?_⟩
        · intro j hj
          rcases List.mem_cons.mp hj with rfl | hj
          · exact ⟨o, o', h1, h2, hb⟩
          · exact i2 j hj
        · refine ⟨fun h => absurd h (Nat.succ_ne_zero d), fun h => ?_⟩
          obtain ⟨a, b, h3, h4, h5⟩ := h k (List.mem_cons_self ..)
          obtain ⟨rfl, rfl⟩ := uniq h3 h4
          exact absurd h5 ha
      · refine Or.inr ⟨k :: pre, j, post, rfl, ?_, by simpa using i3⟩
        intro i hi
        rcases List.mem_cons.mp hi with rfl | hi
        · exact ⟨o, o', h1, h2, hb⟩
        · exact i2 i hi
    · rw [e]
      exact Or.inr ⟨[], k, ks, rfl, fun j h => absurd h List.not_mem_nil, Or.inl ⟨rfl, o, o', h1, h2, hb⟩⟩

theorem mem_keys {c : Container G1 G2 GT} (hs : SMap.Sorted c) {k : Bytes} : k ∈ SMap.keys c ↔ ∃ o, SMap.find k c = some o := by
  constructor
  · intro h
    obtain ⟨p, hp, rfl⟩ := List.mem_map.mp h
    exact ⟨p.2, SMap.find_of_mem hs hp⟩
  · rintro ⟨o, h⟩
    exact List.mem_map.mpr ⟨_, SMap.mem_of_find h, rfl⟩

theorem keys_first : ∀ {c : Container G1 G2 GT} (_ : SMap.Sorted c) {pre post : List Bytes} {k : Bytes} (_ : SMap.keys c = pre ++ k :: post),
    ∀ j, j ∈ pre ↔ j ∈ SMap.keys c ∧ blt j k = true
  | [], _, pre, post, k, h, _ => by simp [SMap.keys] at h
  | (x, o) :: c, hs, [], post, k, h, j => by
    obtain ⟨rfl, h⟩ := List.cons.inj h
    simp only [List.not_mem_nil, false_iff]
    rintro ⟨hj, hb⟩
    rcases List.mem_cons.mp hj with e | hj
    · rw [e, blt_irrefl] at hb; cases hb
    · obtain ⟨p, hp, rfl⟩ := List.mem_map.mp hj
      rw [blt_asymm (hs.1 p hp)] at hb
      cases hb
  | (x, o) :: c, hs, y :: pre, post, k, h, j => by
    obtain ⟨rfl, h'⟩ := List.cons.inj h
    have ih := keys_first hs.2 (show SMap.keys c = pre ++ k :: post from h') j
    rw [List.mem_cons, ih]
    show _ ↔ j ∈ x :: SMap.keys c ∧ _
    rw [List.mem_cons]
    constructor
    · rintro (rfl | ⟨h1, h2⟩)
      · refine ⟨Or.inl rfl, ?_⟩
        have hk : k ∈ SMap.keys c := by
          rw [show SMap.keys c = pre ++ k :: post from h']; simp
        obtain ⟨p, hp, rfl⟩ := List.mem_map.mp hk
        exact hs.1 p hp
      · exact ⟨Or.inr h1, h2⟩
    · rintro ⟨h1 | h1, h2⟩
      · exact Or.inl h1
      · exact Or.inr ⟨h1, h2⟩

/-- The names of `c1` that can be compared: both containers have a component under them, and no empty list is compared with a list. -/
def Usable (c1 c2 : Container G1 G2 GT) (k : Bytes) : Prop := ∃ o o', Has c1 k o ∧ Has c2 k o' ∧ ¬ Bad o o'

/-- All answers of the comparison of two containers. It only looks at the names of the first one. The answer is yes exactly if the
second is not empty and the components under all names of the first are alike; no exactly if it is not empty, all names can be
compared, and some components are not alike. It is undefined exactly if the second is empty or at the first name (in the order of
bytes) that cannot be compared an empty list meets a list; otherwise this name is reported as missing. -/
theorem C150_container (c1 c2 : Container G1 G2 GT) (hs : SMap.Sorted c1) :
    (Container.eq c1 c2 = .ok true ↔ c2 ≠ [] ∧ ∀ k ∈ SMap.keys c1, ∃ o o', Has c1 k o ∧ Has c2 k o' ∧ Alike o o') ∧
    (Container.eq c1 c2 = .ok false ↔ c2 ≠ [] ∧ (∀ k ∈ SMap.keys c1, Usable c1 c2 k) ∧
      ∃ k ∈ SMap.keys c1, ∀ o o', Has c1 k o → Has c2 k o' → ¬ Alike o o') ∧
    (Container.eq c1 c2 = .ub ↔ c2 = [] ∨ ∃ k ∈ SMap.keys c1, (∀ j ∈ SMap.keys c1, blt j k = true → Usable c1 c2 j) ∧
      ∃ o o', Has c1 k o ∧ Has c2 k o' ∧ Bad o o') ∧
    (Container.eq c1 c2 = .throw .elementNotFound ↔ c2 ≠ [] ∧ ∃ k ∈ SMap.keys c1,
      (∀ j ∈ SMap.keys c1, blt j k = true → Usable c1 c2 j) ∧ ((∀ o, ¬ Has c1 k o) ∨ ∀ o, ¬ Has c2 k o)) := by
  by_cases hne : c2 = []
  · subst hne
    rw [C43_empty_right_violated]
    simp
  rw [eq_unfold c1 c2 hne]
  have hasU : ∀ {c : Container G1 G2 GT} {k o o'}, Has c k o → Has c k o' → o = o' := by
    intro c k o o' h h'
    have := h.1
    rw [h'.1] at this
    cases this
    rfl
  have alikeU : ∀ {k}, (∃ o o', Has c1 k o ∧ Has c2 k o' ∧ Alike o o') → Usable c1 c2 k := by
    rintro k ⟨o, o', h1, h2, h3⟩
    refine ⟨o, o', h1, h2, fun hb => ?_⟩
    cases o <;> cases o' <;> first | exact hb | exact h3 hb
  have least : ∀ {k k'}, k ∈ SMap.keys c1 → k' ∈ SMap.keys c1 → (∀ j ∈ SMap.keys c1, blt j k = true → Usable c1 c2 j) →
      (∀ j ∈ SMap.keys c1, blt j k' = true → Usable c1 c2 j) → ¬ Usable c1 c2 k → ¬ Usable c1 c2 k' → k = k' := by
    intro k k' hk hk' h h' hn hn'
    apply blt_connex
    · cases e : blt k k' with
      | false => rfl
      | true => exact absurd (h' k hk e) hn
    · cases e : blt k' k with
      | false => rfl
      | true => exact absurd (h k' hk' e) hn'
  have badN : ∀ {k}, (∃ o o', Has c1 k o ∧ Has c2 k o' ∧ Bad o o') → ¬ Usable c1 c2 k := by
    rintro k ⟨o, o', h1, h2, h3⟩ ⟨a, b, h4, h5, h6⟩
    rw [hasU h4 h1, hasU h5 h2] at h6
    exact h6 h3
  have missN : ∀ {k}, ((∀ o, ¬ Has c1 k o) ∨ ∀ o, ¬ Has c2 k o) → ¬ Usable c1 c2 k := by
    rintro k h ⟨a, b, h4, h5, -⟩
    rcases h with h | h
    · exact h _ h4
    · exact h _ h5
  rcases loop_exact c1 c2 (SMap.keys c1) 0 with ⟨d, h1, h2, h3⟩ | ⟨pre, k, post, hk, h2, h3⟩
  · rw [h1, Res.ok_bind, Nat.zero_add]
    have noBad : ∀ k ∈ SMap.keys c1, ¬ ¬ Usable c1 c2 k := fun k hk h => h (h2 k hk)
    refine ⟨?_, ?_, ?_, ?_⟩
    · rw [← h3]
      simp [hne]
    · constructor
      · intro h
        have hd : d ≠ 0 := by simpa using h
        refine ⟨hne, h2, ?_⟩
        by_contra hc
        apply hd
        rw [h3]
        intro k hk
        by_contra hn
        exact hc ⟨k, hk, fun o o' a b e => hn ⟨o, o', a, b, e⟩⟩
      · rintro ⟨-, -, k, hk, hn⟩
        have hd : d ≠ 0 := by
          intro e
          obtain ⟨o, o', a, b, e⟩ := h3.mp e k hk
          exact hn o o' a b e
        simp [hd]
    · refine ⟨fun h => (by cases h), ?_⟩
      rintro (h | ⟨k, hk, -, h⟩)
      · exact absurd h hne
      · exact absurd (badN h) (noBad k hk)
    · refine ⟨fun h => (by cases h), ?_⟩
      rintro ⟨-, k, hk, -, h⟩
      exact absurd (missN h) (noBad k hk)
  · have hmem : k ∈ SMap.keys c1 := by rw [hk]; simp
    have hfirst : ∀ j ∈ SMap.keys c1, blt j k = true → Usable c1 c2 j := fun j hj hb => h2 j ((keys_first hs hk j).mpr ⟨hj, hb⟩)
    rcases h3 with ⟨h3, hb⟩ | ⟨h3, hm⟩
    · rw [h3]
      have hu := badN hb
      refine ⟨⟨fun h => (by cases h), fun h => absurd (alikeU (h.2 k hmem)) hu⟩, ⟨fun h => (by cases h), fun h => absurd (h.2.1 k hmem) hu⟩,
        ⟨fun _ => Or.inr ⟨k, hmem, hfirst, hb⟩, fun _ => rfl⟩, ⟨fun h => (by cases h), ?_⟩⟩
      rintro ⟨-, k', hk', hf', hm⟩
      have := least hmem hk' hfirst hf' hu (missN hm)
      subst this
      obtain ⟨o, o', a, b, -⟩ := hb
      rcases hm with hm | hm
      · exact absurd a (hm o)
      · exact absurd b (hm o')
    · rw [h3]
      have hu := missN hm
      refine ⟨⟨fun h => (by cases h), fun h => absurd (alikeU (h.2 k hmem)) hu⟩, ⟨fun h => (by cases h), fun h => absurd (h.2.1 k hmem) hu⟩,
        ⟨fun h => (by cases h), ?_⟩, ⟨fun _ => ⟨hne, k, hmem, hfirst, hm⟩, fun _ => rfl⟩⟩
      rintro (h | ⟨k', hk', hf', hb⟩)
      · exact absurd h hne
      · have := least hmem hk' hfirst hf' hu (badN hb)
        subst this
        obtain ⟨o, o', a, b, -⟩ := hb
        rcases hm with hm | hm
        · exact absurd a (hm o)
        · exact absurd b (hm o')

/-- These are all the outcomes. -/
theorem C150_container_all (c1 c2 : Container G1 G2 GT) : Container.eq c1 c2 = .ok true ∨ Container.eq c1 c2 = .ok false ∨
    Container.eq c1 c2 = .ub ∨ Container.eq c1 c2 = .throw .elementNotFound := by
  by_cases hne : c2 = []
  · subst hne
    exact Or.inr (Or.inr (Or.inl (C43_empty_right_violated c1)))
  rw [eq_unfold c1 c2 hne]
  rcases loop_exact c1 c2 (SMap.keys c1) 0 with ⟨d, h1, -, -⟩ | ⟨pre, k, post, -, -, ⟨h3, -⟩ | ⟨h3, -⟩⟩
  · rw [h1]
    rw [Res.ok_bind]
    generalize (0 + d == 0) = b
    cases b
    · exact Or.inr (Or.inl rfl)
    · exact Or.inl rfl
  · rw [h3]; exact Or.inr (Or.inr (Or.inl rfl))
  · rw [h3]; exact Or.inr (Or.inr (Or.inr rfl))

/-- Comparing a container with itself gives yes exactly if it has components, and all are integers, exponents, elements or lists that
are not empty. -/
theorem C150_container_self (c : Container G1 G2 GT) (hs : SMap.Sorted c) :
    Container.eq c c = .ok true ↔ c ≠ [] ∧ ∀ k o, SMap.find k c = some o → Alike o o := by
  rw [(C150_container c c hs).1]
  refine and_congr_right fun _ => ⟨fun h k o ho => ?_, fun h k hk => ?_⟩
  · obtain ⟨a, b, h1, h2, h3⟩ := h k ((mem_keys hs).mpr ⟨o, ho⟩)
    have e1 := h1.1; have e2 := h2.1
    rw [ho] at e1 e2
    cases e1; cases e2
    exact h3
  · obtain ⟨o, ho⟩ := (mem_keys hs).mp hk
    have ha := h k o ho
    have hn : o ≠ .null := by rintro rfl; exact ha
    exact ⟨o, o, ⟨ho, hn⟩, ⟨ho, hn⟩, ha⟩

/-- The comparison of attribute lists: undefined if the first is empty, and yes otherwise. -/
theorem C150_lists (x z : AttrList) : x.isEqual z = if x.attrs = [] then .ub else .ok true := C75_answer_partial x z

/-- The comparison of symmetric keys: yes exactly if version and algorithm are equal, and the identifiers written after each other. -/
theorem C150_symmetric (k k' : SymKey) :
    SymKey.eq k k' = true ↔ k.version = k'.version ∧ k.alg = k'.alg ∧ k.uid ++ k.id = k'.uid ++ k'.id := Sym.C50_headers_partial k k'

-- the answers, in order
example : Container.eq ([(b!"a", .zp 1)] : Container Nat Nat Nat) [(b!"a", .zp 1), (b!"b", .zp 2)] = .ok true ∧
    Container.eq ([(b!"a", .zp 1), (b!"b", .bytes [7])] : Container Nat Nat Nat) [(b!"a", .zp 1), (b!"b", .bytes [7])] = .ok false ∧
    Container.eq ([(b!"a", .attrs {})] : Container Nat Nat Nat) [(b!"a", .attrs {})] = .ub ∧
    Container.eq ([(b!"a", .zp 1)] : Container Nat Nat Nat) [(b!"b", .zp 1)] = .throw .elementNotFound := by
  refine ⟨?_, ?_, ?_, ?_⟩
  · exact (C150_container _ _ (by simp [SMap.Sorted])).1.mpr ⟨by simp, by simp [SMap.keys, Has, SMap.find, Alike]⟩
  · exact (C150_container _ _ (by simp [SMap.Sorted, blt])).2.1.mpr ⟨by simp, by simp [SMap.keys, Usable, Has, SMap.find, Bad],
      b!"b", by simp [SMap.keys], by simp [Has, SMap.find, Alike]⟩
  · exact (C150_container _ _ (by simp [SMap.Sorted])).2.2.1.mpr (Or.inr ⟨b!"a", by simp [SMap.keys], by simp [SMap.keys, blt], by simp [Has, SMap.find, Bad]⟩)
  · exact (C150_container _ _ (by simp [SMap.Sorted])).2.2.2.mpr ⟨by simp, b!"a", by simp [SMap.keys], by simp [SMap.keys, blt], by simp [Has, SMap.find]⟩

example : SMap.Sorted ([(b!"a", .zp 1), (b!"b", .int ⟨3, 4⟩)] : Container Nat Nat Nat) ∧
    ∀ k o, SMap.find k ([(b!"a", .zp 1), (b!"b", .int ⟨3, 4⟩)] : Container Nat Nat Nat) = some o → Alike o o := by
  refine ⟨by simp [SMap.Sorted, blt], fun k o h => ?_⟩
  simp only [SMap.find] at h
  split at h
  · cases h; rfl
  · split at h
    · cases h; rfl
    · cases h

end Compare
end Abe
