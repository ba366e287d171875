import Verif.Proof.PrintParse
import Mathlib.Data.List.Perm.Basic
/-! # The compact string of an attribute list -/
set_option linter.unusedSimpArgs false
set_option linter.unusedSectionVars false
set_option autoImplicit false
namespace Abe
variable {mk : Mktime}

/-- Items that cannot both be kept. -/
def clash : Item → Item → Bool
  | .leaf s, .leaf c => s = c
  | .leaf s, .num c _ => s = c
  | .num s _, .leaf c => s = c
  | .date p _ _ _, .date q _ _ _ => p = q
  | _, _ => false

theorem clash_symm (i j : Item) : clash i j = clash j i := by
  cases i <;> cases j <;> simp [clash, eq_comm]

/-- The items that are not dropped. -/
abbrev kept (P is : List Item) : List Item := contrib (fun i => [i]) P is

theorem contrib_kept {α : Type} (f : Item → List α) : ∀ (is P : List Item),
    contrib f P is = (kept P is).flatMap f
  | [], P => rfl
  | i :: is, P => by
    simp only [contrib, kept, contrib_kept f is (P ++ [i])]
    split <;> simp

theorem mem_kept {j : Item} : ∀ (is P : List Item), j ∈ kept P is →
    ∃ Q1 Q2, is = Q1 ++ j :: Q2 ∧ j.blocked (P ++ Q1) = false
  | [], P, h => by simp [kept, contrib] at h
  | i :: is, P, h => by
    simp only [kept, contrib] at h
    rcases List.mem_append.mp h with h | h
    · split at h
      · cases h
      · rename_i hb
        simp only [List.mem_singleton] at h
        subst h
        exact ⟨[], is, rfl, by simpa using hb⟩
    · obtain ⟨Q1, Q2, rfl, hb⟩ := mem_kept is (P ++ [i]) h
      exact ⟨i :: Q1, Q2, rfl, by simpa using hb⟩

theorem no_clash {i j : Item} {P1 P2 : List Item} (hi : i.blocked P1 = false)
    (hj : j.blocked (P1 ++ i :: P2) = false) : clash i j = false := by
  cases hc : clash i j with
  | false => rfl
  | true =>
    exfalso
    cases i with
    | leaf s =>
      have hn : P1.find? (Item.names s) = none := by
        simp only [Item.blocked] at hi
        have := (any_names_iff P1 s).not.mp (by simp [hi])
        simpa using this
      have hf : (P1 ++ Item.leaf s :: P2).find? (Item.names s) = some (.leaf s) := by
        rw [List.find?_append, hn]
        simp [Item.names]
      cases j with
      | leaf c =>
        simp only [clash, decide_eq_true_eq] at hc; subst hc
        simp [Item.blocked, Item.names] at hj
      | num c n =>
        simp only [clash, decide_eq_true_eq] at hc; subst hc
        simp [Item.blocked, hf] at hj
      | date => simp [clash] at hc
    | num s n =>
      cases j with
      | leaf c =>
        simp only [clash, decide_eq_true_eq] at hc; subst hc
        simp [Item.blocked, Item.names] at hj
      | num => simp [clash] at hc
      | date => simp [clash] at hc
    | date p m d y =>
      cases j with
      | leaf => simp [clash] at hc
      | num => simp [clash] at hc
      | date q m' d' y' =>
        simp only [clash, decide_eq_true_eq] at hc; subst hc
        simp [Item.blocked] at hj

theorem kept_pairwise : ∀ (is P : List Item), (kept P is).Pairwise (fun i j => clash i j = false)
  | [], _ => List.Pairwise.nil
  | i :: is, P => by
    simp only [kept, contrib]
    have ih := kept_pairwise is (P ++ [i])
    by_cases hb : i.blocked P = true
    · simpa [hb] using ih
    · simp only [hb, Bool.false_eq_true, if_false, List.singleton_append, List.pairwise_cons]
      refine ⟨fun j hj => ?_, ih⟩
      obtain ⟨Q1, Q2, rfl, hj'⟩ := mem_kept is (P ++ [i]) hj
      exact no_clash (P2 := Q1) (by simpa using hb) (by simpa using hj')

theorem blocked_clash {P : List Item} {i : Item} (h : i.blocked P = true) : ∃ j ∈ P, clash j i = true := by
  cases i with
  | leaf s =>
    simp only [Item.blocked, List.any_eq_true] at h
    obtain ⟨x, hx, hn⟩ := h
    refine ⟨x, hx, ?_⟩
    rcases Item.names_eq hn with rfl | ⟨n, rfl⟩ <;> simp [clash]
  | num s n =>
    simp only [Item.blocked] at h
    split at h
    · rename_i c hf
      have := find_names_shape hf
      simp at this
      subst this
      exact ⟨_, List.mem_of_find?_eq_some hf, by simp [clash]⟩
    · cases h
  | date p m d y =>
    simp only [Item.blocked, List.any_eq_true] at h
    obtain ⟨x, hx, hn⟩ := h
    refine ⟨x, hx, ?_⟩
    cases x <;> simp_all [clash]

theorem kept_self : ∀ (W P : List Item), (∀ i ∈ P, ∀ j ∈ W, clash i j = false) →
    W.Pairwise (fun i j => clash i j = false) → kept P W = W
  | [], _, _, _ => rfl
  | i :: W, P, h, hw => by
    rw [List.pairwise_cons] at hw
    have hb : i.blocked P = false := by
      cases hb : i.blocked P with
      | false => rfl
      | true =>
        obtain ⟨j, hj, hc⟩ := blocked_clash hb
        rw [h j hj i (by simp)] at hc; cases hc
    simp only [kept, contrib, hb, Bool.false_eq_true, if_false, List.singleton_append, List.cons.injEq, true_and]
    refine kept_self W (P ++ [i]) ?_ hw.2
    intro a ha j hj
    simp only [List.mem_append, List.mem_singleton] at ha
    rcases ha with ha | rfl
    · exact h a ha j (by simp [hj])
    · exact hw.1 j hj

/-! ### Texts of items -/

/-- The number as it is printed. -/
def NumSyn.norm : NumSyn → NumSyn
  | .exp n b => if b = 32 then .flex n else .exp n b
  | .flex n => .flex n

theorem NumSyn.norm_val (n : NumSyn) : n.norm.val = n.val := by
  cases n with
  | exp n b =>
    simp only [NumSyn.norm]
    split
    · rename_i h; subst h; rfl
    · rfl
  | flex n => rfl

theorem NumSyn.norm_valid {n : NumSyn} (h : n.valid = true) : n.norm.valid = true := by
  cases n with
  | exp n b => simp only [NumSyn.norm]; split <;> [rfl; exact h]
  | flex n => rfl

theorem head_append_digit (n : Nat) (r : Bytes) : (natDec n ++ r).head? ≠ some 61 := by
  have hall : (natDec n).all isDigit = true := decAux_digits _ _
  cases hd : natDec n with
  | nil => exact absurd hd (natDec_ne_nil _)
  | cons b w =>
    rw [hd] at hall
    simp only [List.all_cons, Bool.and_eq_true] at hall
    simp only [List.cons_append, List.head?_cons, ne_eq, Option.some.injEq]
    rintro rfl
    exact absurd hall.1 (by decide)

theorem str_head (n : UInteger) (r : Bytes) : (n.str ++ r).head? ≠ some 61 := by
  unfold UInteger.str
  rw [List.append_assoc]
  exact head_append_digit _ _

/-- Printing a number and scanning it. -/
theorem lex_num {n : NumSyn} (hv : n.valid = true) (ht : ∀ t ∈ n.toks, TokOk t) (rest : Bytes)
    (hr : ∀ c, rest.head? = some c → isDigit c = false) : lex (n.val.str ++ rest) = n.norm.toks ++ lex rest := by
  cases n with
  | flex n =>
    have h := ht (.uint n) (by simp [NumSyn.toks])
    have e : (NumSyn.flex n).val.str = natDec n.toNat := by simp [NumSyn.val, createFlexint, UInteger.str]
    rw [e, lex_natDec h.1 h.2 rest hr]
    rfl
  | exp n b =>
    have h := ht (.uint n) (by simp [NumSyn.toks])
    have hb := ht (.uint b) (by simp [NumSyn.toks])
    obtain ⟨hw, _⟩ := (checkValidBit_iff n b).mp hv
    have hb' : b.toNat % 65536 = b.toNat := by rcases hw with h | h | h | h <;> omega
    by_cases h32 : b = 32
    · subst h32
      have e : (NumSyn.exp n 32).val.str = natDec n.toNat := by simp [NumSyn.val, createExpint, UInteger.str]
      rw [e, lex_natDec h.1 h.2 rest hr]
      rfl
    · have hlt : 0 < b.toNat ∧ b.toNat < 32 := by
        have : b.toNat ≠ 32 := fun e => h32 (UInt32.toNat_inj.mp e)
        rcases hw with h | h | h | h <;> omega
      have e : (NumSyn.exp n b).val.str ++ rest = natDec n.toNat ++ 35 :: (natDec b.toNat ++ rest) := by
        simp [NumSyn.val, createExpint, UInteger.str, hb', hlt]
      rw [e, lex_natDec h.1 h.2 _ (by simp; decide), lex_hash, lex_natDec hb.1 hb.2 rest hr]
      simp [NumSyn.norm, h32, NumSyn.toks]

/-- The item as it is printed. -/
def Item.norm : Item → Item
  | .leaf s => .leaf s
  | .num s n => .num s n.norm
  | .date p m d y => .date p m d.norm y.norm

/-- The text of an item. -/
def Item.text : Item → Bytes
  | .leaf s => s
  | .num s n => s ++ b!"=" ++ n.val.str
  | .date p m d y => p ++ b!"=" ++ m ++ b!" " ++ d.val.str ++ b!", " ++ y.val.str

theorem name_head {m : Bytes} (h : isName m = true) (r : Bytes) : (m ++ r).head? ≠ some 61 := by
  cases m with
  | nil => cases h
  | cons b w =>
    simp only [isName, Bool.and_eq_true] at h
    simp only [List.cons_append, List.head?_cons, ne_eq, Option.some.injEq]
    rintro rfl
    exact absurd h.1.1 (by decide)

theorem lex_item {i : Item} (h : i.Ok) (rest : Bytes) : lex (i.text ++ 124 :: rest) =
    i.norm.toks ++ .chr 124 :: lex rest := by
  cases i with
  | leaf s =>
    have hs : isName s = true := h.2 (.leaf s) (by simp [Item.toks])
    simp only [Item.text, Item.norm, Item.toks]
    rw [lex_stop_bar, lex_name' hs]
  | num s n =>
    have hs : isName s = true := h.2 (.leaf s) (by simp [Item.toks])
    have e : (Item.num s n).text ++ 124 :: rest = s ++ 61 :: (n.val.str ++ 124 :: rest) := by simp [Item.text]
    rw [e, lex_name hs _ (by simp; decide), lex_equals (str_head _ _),
      lex_num h.1 (fun t ht => h.2 t (by simp [Item.toks, ht])) _ (by simp; decide), lex_bar]
    simp [Item.norm, Item.toks]
  | date p m d y =>
    have hp : isName p = true := h.2 (.leaf p) (by simp [Item.toks])
    have hm : isName m = true := h.2 (.leaf m) (by simp [Item.toks])
    have hv := h.1
    simp only [Item.valid, Bool.and_eq_true] at hv
    have e : (Item.date p m d y).text ++ 124 :: rest =
        p ++ 61 :: (m ++ 32 :: (d.val.str ++ 44 :: 32 :: (y.val.str ++ 124 :: rest))) := by simp [Item.text]
    rw [e, lex_name hp _ (by simp; decide), lex_equals (name_head hm _), lex_name hm _ (by simp; decide),
      lex_blank (by decide), lex_num hv.1 (fun t ht => h.2 t (by simp [Item.toks, ht])) _ (by simp; decide),
      lex_comma, lex_blank (by decide),
      lex_num hv.2 (fun t ht => h.2 t (by simp [Item.toks, ht])) _ (by simp; decide), lex_bar]
    simp [Item.norm, Item.toks]

/-- A list of items, each followed by a bar. -/
def chain : List Item → AExpr
  | [] => .item (.leaf [])
  | [i] => .post (.item i)
  | i :: is => .cat (.item i) (chain is)

theorem chain_canon : ∀ is : List Item, (chain is).canon = true
  | [] => rfl
  | [_] => rfl
  | _ :: j :: is => by simp [chain, AExpr.canon, AExpr.isItem, chain_canon (j :: is)]

theorem chain_items : ∀ is : List Item, is ≠ [] → (chain is).items = is
  | [], h => absurd rfl h
  | [_], _ => rfl
  | _ :: j :: is, _ => by simp [chain, AExpr.items, chain_items (j :: is) (by simp)]

theorem chain_valid : ∀ is : List Item, (∀ i ∈ is, i.valid = true) → (chain is).valid = true
  | [], _ => rfl
  | [i], h => h i (by simp)
  | i :: j :: is, h => by
    simp only [chain, AExpr.valid, Bool.and_eq_true]
    exact ⟨h i (by simp), chain_valid (j :: is) (fun k hk => h k (by simp [hk]))⟩

theorem chain_toks : ∀ is : List Item, is ≠ [] → (chain is).toks = is.flatMap (fun i => i.toks ++ [.chr 124])
  | [], h => absurd rfl h
  | [i], _ => by simp [chain, AExpr.toks]
  | i :: j :: is, _ => by
    have := chain_toks (j :: is) (by simp)
    simp only [chain, AExpr.toks, this]
    simp

theorem lex_items : ∀ is : List Item, (∀ i ∈ is, i.Ok) →
    lex (is.flatMap (fun i => i.text ++ [124])) = (is.map Item.norm).flatMap (fun i => i.toks ++ [.chr 124])
  | [], _ => by simp [lex_nil]
  | i :: is, h => by
    simp only [List.flatMap_cons, List.map_cons, List.append_assoc, List.singleton_append]
    rw [lex_item (h i (by simp)), lex_items is (fun j hj => h j (by simp [hj]))]

theorem Item.norm_strings (i : Item) : i.norm.strings mk = i.strings mk := by
  cases i <;> simp [Item.norm, Item.strings, NumSyn.norm_val]

theorem Item.norm_origs (i : Item) : i.norm.origs = i.origs := by
  cases i <;> simp [Item.norm, Item.origs, NumSyn.norm_val]

theorem Item.norm_clash (i j : Item) : clash i.norm j.norm = clash i j := by
  cases i <;> cases j <;> rfl

theorem Item.norm_valid {i : Item} (h : i.valid = true) : i.norm.valid = true := by
  cases i with
  | leaf s => rfl
  | num s n => exact NumSyn.norm_valid h
  | date p m d y =>
    simp only [Item.valid, Bool.and_eq_true] at h
    simp [Item.norm, Item.valid, NumSyn.norm_valid h.1, NumSyn.norm_valid h.2]

/-- Is the item a plain attribute? -/
def Item.isLeaf : Item → Bool
  | .leaf _ => true
  | _ => false

theorem isLeaf_leaf (s : Bytes) : (Item.leaf s).isLeaf = true := rfl
theorem isLeaf_num (s : Bytes) (n : NumSyn) : (Item.num s n).isLeaf = false := rfl
theorem isLeaf_date (p m : Bytes) (d y : NumSyn) : (Item.date p m d y).isLeaf = false := rfl

theorem assign_expint {b : Bytes} {v : UInt32} {w : Nat} (hw : Width w) (hv : v.toNat < 2 ^ w) :
    ∀ x ∈ assignStmt b ⟨v, w⟩, hasSub b!"_expint" x = true := by
  intro x hx
  rw [mem_assignStmt hw hv] at hx
  obtain ⟨i, _, rfl⟩ := hx
  rw [hasSub_iff]
  exact ⟨b, _, by simp only [msuf, List.append_assoc]; rfl⟩

theorem compact_attrs : ∀ is : List Item, (∀ i ∈ is, i.Ok) →
    (is.flatMap (Item.strings mk)).flatMap (fun a => if hasSub b!"_expint" a then [] else a ++ [124]) =
      (is.filter Item.isLeaf).flatMap (fun i => i.text ++ [124])
  | [], _ => rfl
  | i :: is, h => by
    have ih := compact_attrs is (fun j hj => h j (by simp [hj]))
    have hi := h i (by simp)
    simp only [List.flatMap_cons, List.flatMap_append]
    rw [ih]
    have drop : ∀ b v w, i.value mk = some (b, v, w) →
        (i.strings mk).flatMap (fun a => if hasSub b!"_expint" a then [] else a ++ [124]) = [] := by
      intro b v w hv
      obtain ⟨h1, h2, _, h4⟩ := Item.value_ok hi hv
      rw [h4, List.flatMap_eq_nil_iff]
      intro x hx
      rw [assign_expint h1 h2 x hx]
      rfl
    cases i with
    | leaf s =>
      have hs : hasSub b!"_expint" s = false := by
        cases hh : hasSub b!"_expint" s with
        | false => rfl
        | true =>
          exfalso
          obtain ⟨x, y, rfl⟩ := hasSub_iff.mp hh
          have hn : isName (x ++ b!"_expint" ++ y) = true := hi.2 (.leaf (x ++ b!"_expint" ++ y)) (by simp [Item.toks])
          exact name_no_expint hn ⟨x ++ [95], y, by simp⟩
      simp [Item.strings, hs, List.filter_cons, isLeaf_leaf, isLeaf_num, isLeaf_date, Item.text]
    | num s n => rw [drop _ _ _ rfl]; simp [List.filter_cons, isLeaf_num, isLeaf_date]
    | date p m d y => rw [drop _ _ _ rfl]; simp [List.filter_cons, isLeaf_num, isLeaf_date]

theorem compact_orig : ∀ is : List Item, (is.flatMap Item.origs).flatMap (fun a => a ++ [124]) =
    (is.filter (fun i => !i.isLeaf)).flatMap (fun i => i.text ++ [124])
  | [] => rfl
  | i :: is => by
    have ih := compact_orig is
    simp only [List.flatMap_cons, List.flatMap_append, ih]
    cases i <;> simp [Item.origs, Item.text, isLeaf_leaf, isLeaf_num, isLeaf_date, List.filter_cons]

theorem origs_filter : ∀ is : List Item, (is.filter (fun i => !i.isLeaf)).flatMap Item.origs = is.flatMap Item.origs
  | [] => rfl
  | i :: is => by
    have ih := origs_filter is
    cases i <;> simp [Item.origs, isLeaf_leaf, isLeaf_num, isLeaf_date, List.filter_cons, ih]

theorem origs_leaf : ∀ is : List Item, (is.filter Item.isLeaf).flatMap Item.origs = []
  | [] => rfl
  | i :: is => by
    have ih := origs_leaf is
    cases i <;> simp_all [Item.origs, isLeaf_leaf, isLeaf_num, isLeaf_date, List.filter_cons]

theorem AExpr.items_ne : ∀ a : AExpr, a.items ≠ []
  | .item _ => by simp [AExpr.items]
  | .pre a => a.items_ne
  | .post a => a.items_ne
  | .cat a b => by simp [AExpr.items, a.items_ne]

theorem kept_ne {is : List Item} (h : is ≠ []) : kept [] is ≠ [] := by
  cases is with
  | nil => exact absurd rfl h
  | cons i is =>
    have : i.blocked [] = false := by cases i <;> rfl
    simp [kept, contrib, this]

theorem kept_sub (is P : List Item) : ∀ i ∈ kept P is, i ∈ is := by
  intro i hi
  obtain ⟨Q1, Q2, rfl, _⟩ := mem_kept is P hi
  simp

/-- Parsing the compact string of a parsed list. -/
theorem compact_reparse {al : AttrList} {is : List Item} (hne : is ≠ []) (hok : ∀ i ∈ is, i.Ok)
    (ha : al.attrs = contrib (Item.strings mk) [] is) (ho : al.orig = contrib Item.origs [] is) :
    ∃ al', createAttributeList mk al.compact = .ok (some al') ∧ al'.attrs.Perm al.attrs ∧ al'.orig = al.orig ∧
      al'.compact = al.compact := by
  let U := kept [] is
  let V := U.filter Item.isLeaf ++ U.filter (fun i => !i.isLeaf)
  have hperm : V.Perm U := List.filter_append_perm _ _
  have hUok : ∀ i ∈ U, i.Ok := fun i hi => hok i (kept_sub is [] i hi)
  have hVok : ∀ i ∈ V, i.Ok := fun i hi => hUok i (hperm.subset hi)
  have hVne : V ≠ [] := fun h => kept_ne hne (List.perm_nil.mp (h ▸ hperm).symm)
  have hcomp : al.compact = 124 :: V.flatMap (fun i => i.text ++ [124]) := by
    unfold AttrList.compact
    rw [ha, ho, contrib_kept, contrib_kept, compact_attrs U hUok, compact_orig, ← List.flatMap_append]
  have hlex : lex al.compact = (AExpr.pre (chain (V.map Item.norm))).toks := by
    rw [hcomp, lex_bar, lex_items V hVok, AExpr.toks, chain_toks _ (by simpa using hVne)]
  have heff : effective (lex al.compact) = (AExpr.pre (chain (V.map Item.norm))).toks := by
    rw [hlex]; exact effective_self (AExpr.sym_ne _)
  have hitems : (AExpr.pre (chain (V.map Item.norm))).items = V.map Item.norm :=
    chain_items _ (by simpa using hVne)
  obtain ⟨al', h1, h2, h3, _⟩ := createAttributeList_ok mk (a := .pre (chain (V.map Item.norm)))
    (chain_canon _) (chain_valid _ (by
      intro i hi
      obtain ⟨j, hj, rfl⟩ := List.mem_map.mp hi
      exact Item.norm_valid (hVok j hj).1)) heff
  rw [hitems] at h2 h3
  have hpw : V.Pairwise (fun i j => clash i j = false) := by
    refine (List.Perm.pairwise_iff ?_ hperm).mpr (kept_pairwise is [])
    intro i j h
    rw [clash_symm]; exact h
  have hself : kept [] (V.map Item.norm) = V.map Item.norm := by
    refine kept_self _ _ (by simp) ?_
    rw [List.pairwise_map]
    exact hpw.imp (fun h => by rw [Item.norm_clash]; exact h)
  have horig : al'.orig = al.orig := by
    rw [h3, ho, contrib_kept, contrib_kept, hself, List.flatMap_map]
    simp only [Item.norm_origs]
    show V.flatMap Item.origs = U.flatMap Item.origs
    rw [List.flatMap_append, origs_leaf, origs_filter, List.nil_append]
  have hattrs : al'.attrs = V.flatMap (Item.strings mk) := by
    rw [h2, contrib_kept, hself, List.flatMap_map]
    simp only [Item.norm_strings]
  refine ⟨al', h1, ?_, horig, ?_⟩
  · rw [hattrs, ha, contrib_kept]
    exact hperm.flatMap_right _
  · have hV : V.filter Item.isLeaf = U.filter Item.isLeaf := by
      show (U.filter Item.isLeaf ++ U.filter (fun i => !i.isLeaf)).filter Item.isLeaf = U.filter Item.isLeaf
      rw [List.filter_append, List.filter_filter, List.filter_filter]
      simp
    unfold AttrList.compact
    rw [hattrs, horig, compact_attrs V hVok, hV, ha, contrib_kept, compact_attrs U hUok]

end Abe
