import Verif.Props.Lists
import Verif.Props.Housekeeping
import Verif.Proof.HashAttr
/-!
# C159: which lists built from strings can be written and read

`toCompactString` writes an attribute list for transport, and `createAttributeList` reads it. For lists that come from text
this is C29. Here the lists are built by the constructor from strings, which takes any string without `=` as an attribute.
-/
set_option linter.unusedSimpArgs false
set_option linter.unusedSectionVars false
set_option autoImplicit false
namespace Abe
variable {mk : Mktime}
namespace Strings

theorem chr_mem : ∀ (n : Nat) (s : Bytes), s.length ≤ n → ∀ b, Tok.chr b ∈ lex s → b ∈ s
  | 0, s, h, b, hb => by
    obtain rfl : s = [] := List.length_eq_zero_iff.mp (by omega)
    rw [lex_nil] at hb; cases hb
  | n + 1, [], _, b, hb => by rw [lex_nil] at hb; cases hb
  | n + 1, c :: s, h, b, hb => by
    simp only [List.length_cons] at h
    have dw : ∀ p : UInt8 → Bool, Tok.chr b ∈ lex (s.dropWhile p) → b ∈ c :: s := fun p hp =>
      List.mem_cons_of_mem _ (List.dropWhile_subset _ (chr_mem n _
        (by have := (List.dropWhile_suffix p (l := s)).length_le; omega) b hp))
    rw [lex_cons] at hb
    split at hb
    · exact dw _ hb
    split at hb
    · rcases List.mem_cons.mp hb with hb | hb
      · cases hb
      · exact List.mem_cons_of_mem _ (chr_mem n s (by omega) b hb)
    split at hb
    · rcases List.mem_cons.mp hb with hb | hb
      · unfold actLeaf at hb
        split_ifs at hb
      · exact dw _ hb
    split at hb
    · rcases List.mem_cons.mp hb with hb | hb
      · unfold actUint at hb
        split_ifs at hb
      · exact dw _ hb
    split at hb
    · rcases List.mem_cons.mp hb with hb | hb
      · unfold actOp at hb
        split_ifs at hb
      · exact List.mem_cons_of_mem _ (List.mem_of_mem_tail (chr_mem n s.tail (by simp; omega) b hb))
    · rcases List.mem_cons.mp hb with hb | hb
      · cases hb; simp
      · exact List.mem_cons_of_mem _ (chr_mem n s (by omega) b hb)

theorem any_leaf (x : Bytes) : ∀ ps : List Bytes, (ps.map Item.leaf).any (Item.names x) = decide (x ∈ ps)
  | [] => rfl
  | p :: ps => by
    rw [List.map_cons, List.any_cons, any_leaf x ps]
    simp only [Item.names, List.mem_cons]
    by_cases h : p = x
    · simp [h]
    · simp [h, Ne.symm h]

theorem contrib_leaf (x : Bytes) : ∀ (ls ps : List Bytes),
    x ∈ contrib (Item.strings mk) (ps.map .leaf) (ls.map .leaf) ↔ x ∈ ls ∧ x ∉ ps
  | [], ps => by simp [contrib]
  | a :: ls, ps => by
    have e : ps.map Item.leaf ++ [Item.leaf a] = (ps ++ [a]).map Item.leaf := by simp
    rw [List.map_cons, contrib, e, List.mem_append, contrib_leaf x ls (ps ++ [a])]
    have hb : (Item.leaf a).blocked (ps.map .leaf) = decide (a ∈ ps) := any_leaf a ps
    rw [hb]
    by_cases ha : a ∈ ps
    · simp only [ha, decide_true, if_true, List.not_mem_nil, false_or, List.mem_append, List.mem_singleton, List.mem_cons, not_or,
        or_false, not_false_iff, and_true]
      constructor
      · exact fun h => ⟨Or.inr h.1, h.2.1⟩
      · rintro ⟨rfl | h, h'⟩
        · exact absurd ha h'
        · refine ⟨h, h', ?_⟩
          rintro rfl
          exact h' ha
    · simp only [ha, decide_false, Bool.false_eq_true, if_false, Item.strings, List.mem_append, List.mem_singleton, List.mem_cons, not_or,
        List.not_mem_nil, or_false, not_false_iff, and_true]
      constructor
      · rintro (rfl | h)
        · exact ⟨Or.inl rfl, ha⟩
        · exact ⟨Or.inr h.1, h.2.1⟩
      · rintro ⟨rfl | h, h'⟩
        · exact Or.inl rfl
        · by_cases hx : x = a
          · exact Or.inl hx
          · exact Or.inr ⟨h, h', hx⟩

/-- A list of leaf items is a list of names. -/
theorem leaves_of : ∀ is : List Item, (∀ i ∈ is, Tok.chr 61 ∉ i.toks) → ∃ ls : List Bytes, is = ls.map .leaf
  | [], _ => ⟨[], rfl⟩
  | i :: is, h => by
    obtain ⟨ls, rfl⟩ := leaves_of is fun j hj => h j (List.mem_cons_of_mem _ hj)
    have hi := h i (by simp)
    cases i with
    | leaf s => exact ⟨s :: ls, rfl⟩
    | num s n => exact absurd (by simp [Item.toks]) hi
    | date s m d y => exact absurd (by simp [Item.toks]) hi

theorem name_not_marker {a : Bytes} (h : isName a = true) : hasSub b!"_expint" a = false := by
  rw [Bool.eq_false_iff]
  intro h'
  have h1 : b!"expint" <:+: b!"_expint" := ⟨b!"_", [], rfl⟩
  exact name_no_expint h (h1.trans (hasSub_iff.mp h'))

theorem args_attrs {n : Nat} {args : List Bytes} {l : AttrList} (h : AttrList.ofArgs mk n args = .ok l) (h61 : ∀ a ∈ args, (61 : UInt8) ∉ a) :
    l.attrs = args.filter (· ≠ []) ∧ l.orig = [] := by
  have hn : n = args.length := by
    by_contra hn
    rw [(C112_constructor mk n args).1 hn] at h; cases h
  unfold AttrList.ofArgs at h
  rw [if_neg (by simpa using hn)] at h
  have key : ∀ (as : List Bytes) (l0 l : AttrList), (∀ a ∈ as, (61 : UInt8) ∉ a) → AttrList.ofArgs.loop mk l0 as = .ok l →
      l.attrs = l0.attrs ++ as.filter (· ≠ []) ∧ l.orig = l0.orig := by
    intro as
    induction as with
    | nil => intro l0 l _ h; cases h; simp
    | cons a as ih =>
      intro l0 l h61 h
      unfold AttrList.ofArgs.loop at h
      by_cases ha : a = []
      · rw [if_pos ha] at h
        obtain ⟨h1, h2⟩ := ih l0 l (fun b hb => h61 b (List.mem_cons_of_mem _ hb)) h
        exact ⟨by simpa [ha] using h1, h2⟩
      · rw [if_neg ha] at h
        obtain ⟨l1, h1, h2⟩ := (Res.bind_eq_ok _ _ _).mp h
        obtain ⟨k1, k2⟩ := ih l1 l (fun b hb => h61 b (List.mem_cons_of_mem _ hb)) h2
        have hadd : l1.attrs = l0.attrs ++ [a] ∧ l1.orig = l0.orig := by
          unfold AttrList.add at h1
          simp only at h1
          rw [if_pos (by simpa using h61 a (by simp))] at h1
          cases h1
          split
          · split <;> exact ⟨rfl, rfl⟩
          · exact ⟨rfl, rfl⟩
        rw [k1, k2, hadd.1, hadd.2, List.filter_cons_of_pos (by simpa using ha)]
        simp
  simpa using key args {} l h61 h

theorem compact_plain {l : AttrList} (h61 : ∀ a ∈ l.attrs, (61 : UInt8) ∉ a) (ho : l.orig = []) : (61 : UInt8) ∉ l.compact := by
  intro h
  unfold AttrList.compact at h
  rw [ho] at h
  simp only [List.flatMap_nil, List.append_nil, List.mem_cons, List.mem_flatMap] at h
  rcases h with h | ⟨a, ha, h⟩
  · exact absurd h (by decide)
  · split at h
    · cases h
    · rcases List.mem_append.mp h with h | h
      · exact h61 a ha h
      · exact absurd (List.mem_singleton.mp h) (by decide)

theorem read_back {l : AttrList} (hne : l.attrs ≠ []) (hn : ∀ a ∈ l.attrs, isName a = true) (ho : l.orig = []) :
    ∃ l', createAttributeList mk l.compact = .ok (some l') ∧ ∀ x, x ∈ l'.attrs ↔ x ∈ l.attrs := by
  have hok : ∀ i ∈ l.attrs.map Item.leaf, i.Ok := by
    intro i hi
    obtain ⟨a, ha, rfl⟩ := List.mem_map.mp hi
    refine ⟨rfl, fun t ht => ?_⟩
    simp only [Item.toks, List.mem_singleton] at ht
    subst ht
    exact hn a ha
  have hcomp : l.compact = 124 :: (l.attrs.map Item.leaf).flatMap (fun i => i.text ++ [124]) := by
    unfold AttrList.compact
    rw [ho]
    simp only [List.flatMap_nil, List.append_nil, List.flatMap_map]
    congr 1
    refine List.flatMap_congr fun a ha => ?_
    rw [name_not_marker (hn a ha)]
    rfl
  have hmap : (l.attrs.map Item.leaf).map Item.norm = l.attrs.map Item.leaf := by
    rw [List.map_map]; rfl
  have hne' : l.attrs.map Item.leaf ≠ [] := by simpa using hne
  have hlex : lex l.compact = (AExpr.pre (chain (l.attrs.map Item.leaf))).toks := by
    rw [hcomp, lex_bar, lex_items _ hok, hmap, AExpr.toks, chain_toks _ hne']
  obtain ⟨l', h1, h2, -, -⟩ := createAttributeList_ok mk (s := l.compact) (a := .pre (chain (l.attrs.map Item.leaf)))
    (chain_canon _) (chain_valid _ fun i hi => (hok i hi).1) (by rw [hlex]; exact effective_self (AExpr.sym_ne _))
  refine ⟨l', h1, fun x => ?_⟩
  rw [h2, show (AExpr.pre (chain (l.attrs.map Item.leaf))).items = l.attrs.map Item.leaf from chain_items _ hne']
  have := contrib_leaf (mk := mk) x l.attrs []
  simpa using this

theorem read_names {l l' : AttrList} (h61 : (61 : UInt8) ∉ l.compact) (h : createAttributeList mk l.compact = .ok (some l')) :
    l'.attrs ≠ [] ∧ ∀ a ∈ l'.attrs, isName a = true := by
  obtain ⟨a, hv, hc, he⟩ := accepted_list h
  obtain ⟨l2, h1, h2, -, ht⟩ := createAttributeList_ok mk hc hv he
  rw [h] at h1; cases h1
  obtain ⟨ls, hls⟩ := leaves_of a.items fun i hi h => h61 (chr_mem _ _ (Nat.le_refl _) 61
    (List.takeWhile_subset _ (he ▸ AExpr.items_toks a i hi _ h)))
  have hmem : ∀ x, x ∈ l'.attrs ↔ x ∈ ls := by
    intro x
    have := contrib_leaf (mk := mk) x ls []
    rw [h2, hls]
    simpa using this
  constructor
  · intro h0
    have hne := AExpr.items_ne a
    rw [hls] at hne
    obtain ⟨x, hx⟩ := List.exists_mem_of_ne_nil ls (by simpa using hne)
    rw [← hmem, h0] at hx; cases hx
  · intro x hx
    exact ht (.leaf x) (AExpr.items_toks a (.leaf x) (by rw [hls]; exact List.mem_map_of_mem ((hmem x).mp hx)) _ (by simp [Item.toks]))

end Strings

open Strings

/-- **Exactly the lists that survive.** A list built from strings without `=` is read back from its compact text as the same
set of attributes exactly when at least one string is not empty, and every such string is a name that the scanner reads as
one attribute. -/
theorem C159_exact (n : Nat) (args : List Bytes) (l : AttrList) (h61 : ∀ a ∈ args, (61 : UInt8) ∉ a)
    (h : AttrList.ofArgs mk n args = .ok l) :
    (∃ l', createAttributeList mk l.compact = .ok (some l') ∧ ∀ x, x ∈ l'.attrs ↔ x ∈ l.attrs) ↔
      (∃ a ∈ args, a ≠ []) ∧ ∀ a ∈ args, a ≠ [] → isName a = true := by
  obtain ⟨ha, ho⟩ := args_attrs h h61
  have hmem : ∀ x, x ∈ l.attrs ↔ x ∈ args ∧ x ≠ [] := fun x => by rw [ha, List.mem_filter]; simp
  constructor
  · rintro ⟨l', h1, h2⟩
    obtain ⟨k1, k2⟩ := read_names (compact_plain (fun a ha => h61 a ((hmem a).mp ha).1) ho) h1
    obtain ⟨x, hx⟩ := List.exists_mem_of_ne_nil _ k1
    exact ⟨⟨x, ((hmem x).mp ((h2 x).mp hx))⟩, fun a ha h0 => k2 a ((h2 a).mpr ((hmem a).mpr ⟨ha, h0⟩))⟩
  · rintro ⟨⟨x, hx, h0⟩, hn⟩
    exact read_back (List.ne_nil_of_mem ((hmem x).mpr ⟨hx, h0⟩)) (fun a ha => hn a ((hmem a).mp ha).1 ((hmem a).mp ha).2) ho

/-- Whatever the strings are, a compact text that is read at all is read as names: a string that is no name is lost or becomes
something else. -/
theorem C159_only_names (n : Nat) (args : List Bytes) (l l' : AttrList) (h61 : ∀ a ∈ args, (61 : UInt8) ∉ a)
    (h : AttrList.ofArgs mk n args = .ok l) (h' : createAttributeList mk l.compact = .ok (some l')) (a : Bytes)
    (ha : isName a = false) : a ∉ l'.attrs := by
  obtain ⟨hat, ho⟩ := args_attrs h h61
  intro hm
  have := (read_names (compact_plain (fun a ha => h61 a (by rw [hat] at ha; exact List.mem_of_mem_filter ha)) ho) h').2 a hm
  rw [ha] at this; cases this

/-- **What the written form says.** Two lists built from names have the same compact text exactly when they hold the same
attributes in the same order. -/
theorem C159_text (n n' : Nat) (args args' : List Bytes) (l l' : AttrList) (hn : ∀ a ∈ args, isName a = true)
    (hn' : ∀ a ∈ args', isName a = true) (h : AttrList.ofArgs mk n args = .ok l) (h' : AttrList.ofArgs mk n' args' = .ok l') :
    l.compact = l'.compact ↔ args = args' := by
  have h61 : ∀ a, isName a = true → (61 : UInt8) ∉ a ∧ (124 : UInt8) ∉ a ∧ a ≠ [] := by
    intro a ha
    obtain ⟨hw, h0⟩ := name_word ha
    exact ⟨fun hm => absurd (List.all_eq_true.mp hw _ hm) (by decide), fun hm => absurd (List.all_eq_true.mp hw _ hm) (by decide), h0⟩
  have hall : ∀ (as : List Bytes), (∀ a ∈ as, isName a = true) → as.filter (· ≠ []) = as := fun as hs =>
    List.filter_eq_self.mpr fun a ha => by simpa using (h61 a (hs a ha)).2.2
  obtain ⟨ha, ho⟩ := args_attrs h fun a ha => (h61 a (hn a ha)).1
  obtain ⟨ha', ho'⟩ := args_attrs h' fun a ha => (h61 a (hn' a ha)).1
  rw [hall args hn] at ha
  rw [hall args' hn'] at ha'
  have hc : ∀ (as : List Bytes), (∀ a ∈ as, isName a = true) →
      as.flatMap (fun a => if hasSub b!"_expint" a then [] else a ++ [124]) = as.flatMap (fun a => a ++ [124]) := fun as hs =>
    List.flatMap_congr fun a ha => by rw [name_not_marker (hs a ha)]; rfl
  unfold AttrList.compact
  rw [ha, ha', ho, ho', hc args hn, hc args' hn']
  constructor
  · intro he
    simp only [List.flatMap_nil, List.append_nil, List.cons.injEq, true_and] at he
    exact flat_inj (fun x hx => (h61 x (hn x hx)).2.1) (fun x hx => (h61 x (hn' x hx)).2.1) he
  · rintro rfl; rfl

/-- Names, and strings that are none: a blank, a bar, a keyword, a marker. -/
example : isName b!"dept:hr" = true ∧ isName b!"a b" = false ∧ isName b!"a|b" = false ∧ isName b!"or" = false ∧
    isName b!"x_expint08_1" = false ∧ AttrList.ofArgs mk 2 [b!"dept:hr", b!"a b"] = .ok { attrs := [b!"dept:hr", b!"a b"], prefixes := [b!"dept"] } :=
  ⟨by decide +kernel, by decide +kernel, by decide +kernel, by decide +kernel, by decide +kernel, rfl⟩

end Abe
