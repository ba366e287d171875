import Verif.Proof.ParsedTree
import Verif.Model.AttrList
/-! # Parsed attribute lists -/
set_option linter.unusedSimpArgs false
set_option linter.unusedSectionVars false
set_option autoImplicit false
namespace Abe
variable {mk : Mktime}

/-! ### Substrings -/

theorem hasSub_iff {k : Bytes} : ∀ {s : Bytes}, hasSub k s = true ↔ k <:+: s
  | [] => by simp [hasSub]
  | b :: s => by
    simp only [hasSub, Bool.or_eq_true, hasSub_iff (s := s), List.infix_cons_iff, List.isPrefixOf_iff_prefix]

theorem name_no_expint {s : Bytes} (h : isName s = true) : ¬ b!"expint" <:+: s := by
  rw [← hasSub_iff]
  cases s with
  | nil => cases h
  | cons b w =>
    simp only [isName, Bool.and_eq_true, Bool.not_eq_true', isReserved, Bool.or_eq_false_iff] at h
    simp [h.2.2]

theorem prefix_head_drop {E r1 u r2 : Bytes} (h : E ++ r1 = u ++ r2) (hl : E.length ≤ u.length) : E <+: u :=
  List.prefix_of_prefix_length_le (l₃ := u ++ r2) ⟨r1, h⟩ ⟨r2, rfl⟩ hl

/-- The marker text occurs only once when the names do not contain `expint`. -/
theorem base_unique_aux {b s r1 r2 : Bytes} (hs : ¬ b!"expint" <:+: s) (hl : b.length ≤ s.length)
    (h : b ++ (b!"_expint" ++ r1) = s ++ (b!"_expint" ++ r2)) : b = s := by
  obtain ⟨u, rfl⟩ : ∃ u, s = b ++ u := by
    obtain ⟨u, hu⟩ := List.prefix_of_prefix_length_le (l₃ := s ++ (b!"_expint" ++ r2)) ⟨_, h⟩ ⟨_, rfl⟩ hl
    exact ⟨u, hu.symm⟩
  rw [List.append_assoc] at h
  replace h := List.append_cancel_left h
  match u, hs, h with
  | [], _, _ => simp
  | [_], _, h => simp at h
  | [_, _], _, h => simp at h
  | [_, _, _], _, h => simp at h
  | [_, _, _, _], _, h => simp at h
  | [_, _, _, _, _], _, h => simp at h
  | [_, _, _, _, _, _], _, h => simp at h
  | c0 :: c1 :: c2 :: c3 :: c4 :: c5 :: c6 :: u, hs, h =>
    exfalso
    apply hs
    simp at h
    obtain ⟨rfl, rfl, rfl, rfl, rfl, rfl, rfl, _⟩ := h
    exact ⟨b ++ [95], u, by simp⟩

theorem base_unique {b s r1 r2 : Bytes} (hb : ¬ b!"expint" <:+: b) (hs : ¬ b!"expint" <:+: s)
    (h : b ++ (b!"_expint" ++ r1) = s ++ (b!"_expint" ++ r2)) : b = s := by
  rcases Nat.le_total b.length s.length with hl | hl
  · exact base_unique_aux hs hl h
  · exact (base_unique_aux hb hl h.symm).symm

theorem no_expint_time {p : Bytes} (h : ¬ b!"expint" <:+: p) : ¬ b!"expint" <:+: p ++ b!":time" := by
  rintro ⟨a, r, h'⟩
  rw [List.append_assoc] at h'
  have hlen := congrArg List.length h'
  simp at hlen
  by_cases hl : a.length + 6 ≤ p.length
  · apply h
    obtain ⟨u, hu⟩ := List.prefix_of_prefix_length_le (l₁ := a ++ b!"expint") (l₂ := p)
      (l₃ := p ++ b!":time") ⟨r, by simpa using h'⟩ ⟨_, rfl⟩ (by simpa using hl)
    exact ⟨a, u, by simpa using hu⟩
  · -- the byte `:` would lie inside `expint`, or the length does not fit
    by_cases hl2 : p.length < a.length
    · omega
    · have h1 : (p ++ b!":time")[p.length]? = some 58 := by simp
      rw [← h'] at h1
      rw [List.getElem?_append_right (by omega)] at h1
      have h3 : p.length - a.length < 6 := by omega
      generalize hk : p.length - a.length = k at h1 h3
      match k, h3 with
      | 0, _ => simp at h1
      | 1, _ => simp at h1
      | 2, _ => simp at h1
      | 3, _ => simp at h1
      | 4, _ => simp at h1
      | 5, _ => simp at h1

/-! ### Items in order -/

/-- Is it the plain attribute or the number `s`? -/
def Item.names (s : Bytes) : Item → Bool
  | .leaf c => c = s
  | .num c _ => c = s
  | .date _ _ _ _ => false

/-- An item that the driver drops because of the items before it. -/
def Item.blocked (P : List Item) : Item → Bool
  | .leaf s => P.any (Item.names s)
  | .num s _ => match P.find? (Item.names s) with | some (.leaf _) => true | _ => false
  | .date p _ _ _ => P.any fun | .date q _ _ _ => p = q | _ => false

/-- The original text that is kept for an item. -/
def Item.origs : Item → List Bytes
  | .leaf _ => []
  | .num s n => [s ++ b!"=" ++ n.val.str]
  | .date p m d y => [p ++ b!"=" ++ m ++ b!" " ++ d.val.str ++ b!", " ++ y.val.str]

/-- What the items contribute, after `P`. -/
def contrib {α : Type} (f : Item → List α) : List Item → List Item → List α
  | _, [] => []
  | P, i :: is => (if i.blocked P then [] else f i) ++ contrib f (P ++ [i]) is

theorem contrib_append {α : Type} (f : Item → List α) : ∀ (is P js : List Item),
    contrib f P (is ++ js) = contrib f P is ++ contrib f (P ++ is) js
  | [], P, js => by simp [contrib]
  | i :: is, P, js => by simp [contrib, contrib_append f is (P ++ [i]) js]

/-- What the driver remembers of the items read so far. -/
structure DInv (mk : Mktime) (d : Drv) (P : List Item) : Prop where
  count : ∀ s, match P.find? (Item.names s) with
    | some (.leaf _) => SMap.find s d.attrCount = some 1
    | some _ => SMap.find s d.attrCount = some 0
    | none => SMap.find s d.attrCount = none
  dates : ∀ p, p ∈ d.datePrefix ↔ P.any (fun | .date q _ _ _ => p = q | _ => false) = true

theorem DInv.init (b : Bool) (s : Bytes) : DInv mk { input := s, isPolicy := b } [] :=
  ⟨fun s => rfl, fun p => by simp⟩

theorem find_names_snoc (P : List Item) (i : Item) (s : Bytes) : (P ++ [i]).find? (Item.names s) =
    match P.find? (Item.names s) with
    | some x => some x
    | none => if i.names s then some i else none := by
  rw [List.find?_append]
  cases P.find? (Item.names s) with
  | some x => rfl
  | none => simp only [Option.none_or, List.find?_cons, List.find?_nil]; split <;> simp_all

theorem any_names_iff (P : List Item) (s : Bytes) : P.any (Item.names s) = true ↔ (P.find? (Item.names s)).isSome := by
  simp [List.find?_isSome]

theorem find_names_shape {P : List Item} {s : Bytes} {x : Item} (h : P.find? (Item.names s) = some x) :
    (x = .leaf s) ∨ ∃ n, x = .num s n := by
  have := List.find?_some h
  cases x with
  | leaf c => simp [Item.names] at this; simp [this]
  | num c n => simp [Item.names] at this; simp [this]
  | date => simp [Item.names] at this

/-- One item. -/
theorem item_eval {d : Drv} {P : List Item} (hi : DInv mk d P) (i : Item) (ht : ∀ t ∈ i.toks, TokOk t) :
    ∃ o d', i.eval mk d = .ok (o, d') ∧ DInv mk d' (P ++ [i]) ∧
      o.getD [] = (if i.blocked P then [] else i.strings mk) ∧
      d'.orig = d.orig ++ (if i.blocked P then [] else i.origs) ∧
      (i.blocked P = false → o.isSome) ∧ SameOut d d' := by
  cases i with
  | leaf s =>
    obtain ⟨p, a, hc⟩ := checkAttribute_ok (name_ne58 (ht (.leaf s) (by simp [Item.toks])))
    have hcount := hi.count s
    have hdates : ∀ p, p ∈ d.datePrefix ↔ (P ++ [Item.leaf s]).any (fun | .date q _ _ _ => p = q | _ => false) = true := by
      intro p; rw [hi.dates]; simp
    simp only [Item.eval, leafAttr, parseAttribute, hc, Res.ok_bind]
    cases hf : P.find? (Item.names s) with
    | some x =>
      have hb : Item.blocked P (.leaf s) = true := by
        simp only [Item.blocked, any_names_iff, hf]; rfl
      rw [hf] at hcount
      have : ∃ n, SMap.find s d.attrCount = some n := by
        rcases find_names_shape hf with rfl | ⟨n, rfl⟩ <;> exact ⟨_, hcount⟩
      obtain ⟨n, hn⟩ := this
      simp only [hn, hb, if_true]
      refine ⟨none, d, rfl, ⟨?_, hdates⟩, rfl, by simp, by simp, SameOut.refl _⟩
      intro c
      rw [find_names_snoc]
      have := hi.count c
      cases hcc : P.find? (Item.names c) with
      | some y => rw [hcc] at this; exact this
      | none =>
        have hne : s ≠ c := by rintro rfl; rw [hf] at hcc; cases hcc
        rw [hcc] at this
        simp [Item.names, hne, this]
    | none =>
      have hb : Item.blocked P (.leaf s) = false := by
        have := (any_names_iff P s).not.mpr (by simp [hf])
        simpa [Item.blocked] using this
      rw [hf] at hcount
      simp only at hcount
      simp only [hcount, hb, Bool.false_eq_true, if_false, if_true]
      let d1 : Drv := { d with attrCount := SMap.insert s 1 d.attrCount }
      let d2 : Drv := if p ≠ [] then { d1 with attrPrefix := sinsert p d1.attrPrefix } else d1
      have e1 : d2.attrCount = SMap.insert s 1 d.attrCount := by simp only [d2]; split <;> rfl
      have e2 : d2.datePrefix = d.datePrefix := by simp only [d2]; split <;> rfl
      have e3 : d2.orig = d.orig := by simp only [d2]; split <;> rfl
      have e4 : SameOut d d2 := by simp only [d2]; split <;> exact ⟨rfl, rfl, rfl, rfl⟩
      refine ⟨some [s], d2, rfl, ⟨?_, fun p => by rw [e2]; exact hdates p⟩, rfl, by rw [e3]; simp [Item.origs], by simp, e4⟩
      intro c
      rw [find_names_snoc, e1, SMap.find_insert]
      have := hi.count c
      by_cases hcs : c = s
      · subst hcs
        rw [hf]
        simp [Item.names]
      · cases hcc : P.find? (Item.names c) with
        | some y => rw [hcc] at this; simpa [hcs] using this
        | none => rw [hcc] at this; simp [Item.names, hcs, Ne.symm hcs, this]
  | num s n =>
    have hcount := hi.count s
    have hdates : ∀ p, p ∈ d.datePrefix ↔ (P ++ [Item.num s n]).any (fun | .date q _ _ _ => p = q | _ => false) = true := by
      intro p; rw [hi.dates]; simp
    simp only [Item.eval]
    cases hf : P.find? (Item.names s) with
    | some x =>
      rw [hf] at hcount
      have hcnt : ∀ (d' : Drv), d'.attrCount = d.attrCount → ∀ c, match (P ++ [Item.num s n]).find? (Item.names c) with
          | some (.leaf _) => SMap.find c d'.attrCount = some 1
          | some _ => SMap.find c d'.attrCount = some 0
          | none => SMap.find c d'.attrCount = none := by
        intro d' e c
        rw [find_names_snoc, e]
        have := hi.count c
        cases hcc : P.find? (Item.names c) with
        | some y => rw [hcc] at this; exact this
        | none =>
          have hne : s ≠ c := by rintro rfl; rw [hf] at hcc; cases hcc
          rw [hcc] at this
          simp [Item.names, hne, this]
      rcases find_names_shape hf with rfl | ⟨m, rfl⟩
      · have hb : Item.blocked P (.num s n) = true := by simp only [Item.blocked, hf]
        simp only at hcount
        have e : attrNum d s n.val = ([], d) := by simp [attrNum, hcount]
        rw [e, hb]
        exact ⟨some [], d, rfl, ⟨hcnt d rfl, hdates⟩, rfl, by simp, by simp, SameOut.refl _⟩
      · have hb : Item.blocked P (.num s n) = false := by simp only [Item.blocked, hf]
        simp only at hcount
        let d1 : Drv := { d with orig := d.orig ++ [s ++ b!"=" ++ n.val.str] }
        have e : attrNum d s n.val = (assignStmt s n.val, d1) := by simp [attrNum, hcount, d1]
        rw [e, hb]
        exact ⟨_, d1, rfl, ⟨hcnt d1 rfl, hdates⟩, rfl, by simp [d1, Item.origs], by simp, ⟨rfl, rfl, rfl, rfl⟩⟩
    | none =>
      have hb : Item.blocked P (.num s n) = false := by simp only [Item.blocked, hf]
      rw [hf] at hcount
      simp only at hcount
      let d1 : Drv := { d with attrCount := SMap.insert s 0 d.attrCount, orig := d.orig ++ [s ++ b!"=" ++ n.val.str] }
      have e : attrNum d s n.val = (assignStmt s n.val, d1) := by simp [attrNum, hcount, d1]
      rw [e, hb]
      refine ⟨_, d1, rfl, ⟨?_, hdates⟩, rfl, by simp [d1, Item.origs], by simp, ⟨rfl, rfl, rfl, rfl⟩⟩
      intro c
      have e5 : d1.attrCount = SMap.insert s 0 d.attrCount := rfl
      rw [find_names_snoc, e5, SMap.find_insert]
      have := hi.count c
      by_cases hcs : c = s
      · subst hcs
        rw [hf]
        simp [Item.names]
      · cases hcc : P.find? (Item.names c) with
        | some y => rw [hcc] at this; simpa [hcs] using this
        | none => rw [hcc] at this; simp [Item.names, hcs, Ne.symm hcs, this]
  | date p m dd y =>
    have hcount : ∀ (d' : Drv), d'.attrCount = d.attrCount → ∀ c, match (P ++ [Item.date p m dd y]).find? (Item.names c) with
        | some (.leaf _) => SMap.find c d'.attrCount = some 1
        | some _ => SMap.find c d'.attrCount = some 0
        | none => SMap.find c d'.attrCount = none := by
      intro d' e c
      rw [find_names_snoc, e]
      have := hi.count c
      cases hcc : P.find? (Item.names c) with
      | some y => rw [hcc] at this; exact this
      | none => rw [hcc] at this; simp [Item.names, this]
    simp only [Item.eval]
    by_cases hp : p ∈ d.datePrefix
    · have hb : Item.blocked P (.date p m dd y) = true := (hi.dates p).mp hp
      have e : setDateAttr mk d p m (getMonth m) dd.val y.val = ([], d) := by simp [setDateAttr, hp]
      rw [e, hb]
      refine ⟨some [], d, rfl, ⟨hcount d rfl, ?_⟩, rfl, by simp, by simp, SameOut.refl _⟩
      intro q
      rw [hi.dates]
      by_cases hq : q = p
      · subst hq
        have := (hi.dates q).mp hp
        simp [this]
      · simp [hq]
    · have hb : Item.blocked P (.date p m dd y) = false := by
        have := (hi.dates p).not.mp hp
        simpa [Item.blocked] using this
      let d1 : Drv := { d with orig := d.orig ++ [p ++ b!"=" ++ m ++ b!" " ++ dd.val.str ++ b!", " ++ y.val.str], datePrefix := sinsert p d.datePrefix }
      have e : setDateAttr mk d p m (getMonth m) dd.val y.val =
          (assignStmt (p ++ b!":" ++ b!"time") ⟨validateDate mk (getMonth m) dd.val y.val, 32⟩, d1) := by
        simp only [setDateAttr, hp, if_false, d1]
      rw [e, hb]
      refine ⟨_, d1, rfl, ⟨hcount d1 rfl, ?_⟩, ?_, by simp [d1, Item.origs], by simp, ⟨rfl, rfl, rfl, rfl⟩⟩
      · intro q
        simp only [d1, mem_sinsert, hi.dates, List.any_append, List.any_cons, List.any_nil, Bool.or_false,
          Bool.or_eq_true, decide_eq_true_eq]
        exact Or.comm
      · simp [Item.strings]

/-- A whole list. -/
theorem aexpr_eval : ∀ (a : AExpr) (d : Drv) (P : List Item), DInv mk d P → (∀ t ∈ a.toks, TokOk t) →
    ∃ o d', a.eval mk d = .ok (o, d') ∧ DInv mk d' (P ++ a.items) ∧
      o.getD [] = contrib (Item.strings mk) P a.items ∧
      d'.orig = d.orig ++ contrib Item.origs P a.items ∧ (P = [] → o.isSome) ∧ SameOut d d'
  | .item i, d, P, hi, ht => by
    obtain ⟨o, d', h1, h2, h3, h4, h5, h6⟩ := item_eval hi i ht
    refine ⟨o, d', h1, h2, by simpa [AExpr.items, contrib] using h3, by simpa [AExpr.items, contrib] using h4, ?_, h6⟩
    rintro rfl
    apply h5
    cases i <;> rfl
  | .pre a, d, P, hi, ht => by
    obtain ⟨o, d', h1, h2, h3, h4, h5, h6⟩ := aexpr_eval a d P hi (fun t h => ht t (by simp [AExpr.toks, h]))
    exact ⟨some (o.getD []), d', by simp [AExpr.eval, h1, concatAttr], h2, h3, h4, by simp, h6⟩
  | .post a, d, P, hi, ht => by
    obtain ⟨o, d', h1, h2, h3, h4, h5, h6⟩ := aexpr_eval a d P hi (fun t h => ht t (by simp [AExpr.toks, h]))
    exact ⟨some (o.getD []), d', by simp [AExpr.eval, h1, concatAttr], h2, h3, h4, by simp, h6⟩
  | .cat a b, d, P, hi, ht => by
    obtain ⟨o, d', h1, h2, h3, h4, h5, h6⟩ := aexpr_eval a d P hi (fun t h => ht t (by simp [AExpr.toks, h]))
    obtain ⟨o2, d2, g1, g2, g3, g4, g5, g6⟩ := aexpr_eval b d' _ h2 (fun t h => ht t (by simp [AExpr.toks, h]))
    refine ⟨some (o.getD [] ++ o2.getD []), d2, by simp [AExpr.eval, h1, g1, concatAttr], ?_, ?_, ?_, by simp, h6.trans g6⟩
    · simpa [AExpr.items] using g2
    · simp [AExpr.items, contrib_append, h3, g3]
    · simp [AExpr.items, contrib_append, h4, g4]

/-- An accepted attribute list: which strings it holds. -/
theorem createAttributeList_ok (mk : Mktime) {s : Bytes} {a : AExpr} (hc : a.canon = true) (hv : a.valid = true)
    (he : effective (lex s) = a.toks) :
    ∃ al, createAttributeList mk s = .ok (some al) ∧ al.attrs = contrib (Item.strings mk) [] a.items ∧
      al.orig = contrib Item.origs [] a.items ∧ ∀ t ∈ a.toks, TokOk t := by
  have ht : ∀ t ∈ a.toks, TokOk t := by
    intro t h
    rw [← he] at h
    exact tokOk_of_lex (List.takeWhile_subset _ h)
  have hs : s ≠ [] := by
    rintro rfl
    obtain ⟨t, r, h⟩ := a.head
    rw [h] at he
    simp [lex_nil, effective] at he
  obtain ⟨o, d', h1, h2, h3, h4, h5, h6⟩ := aexpr_eval a _ _ (DInv.init (mk := mk) false s) ht
  obtain ⟨l, rfl⟩ := Option.isSome_iff_exists.mp (h5 rfl)
  refine ⟨{ attrs := l, orig := d'.orig, prefixes := d'.attrPrefix }, ?_, by simpa using h3, by simpa using h4, ht⟩
  unfold createAttributeList
  rw [if_neg hs, parseString_attrs hc hv s he, h1]
  rfl


/-! ### Lists in which every number is set once -/

theorem inj_of_nodup_filterMap {α β : Type} {f : α → Option β} : ∀ {l : List α}, (l.filterMap f).Nodup →
    ∀ {a b : α} {k : β}, a ∈ l → b ∈ l → f a = some k → f b = some k → a = b
  | [], _, _, _, _, h, _, _, _ => by cases h
  | x :: l, hn, a, b, k, ha, hb, fa, fb => by
    have mem : ∀ c, c ∈ l → f c = some k → k ∈ l.filterMap f := fun c hc hk => List.mem_filterMap.mpr ⟨c, hc, hk⟩
    cases hx : f x with
    | none =>
      rw [List.filterMap_cons_none hx] at hn
      have ha' : a ∈ l := by
        rcases List.mem_cons.mp ha with rfl | h
        · rw [hx] at fa; cases fa
        · exact h
      have hb' : b ∈ l := by
        rcases List.mem_cons.mp hb with rfl | h
        · rw [hx] at fb; cases fb
        · exact h
      exact inj_of_nodup_filterMap hn ha' hb' fa fb
    | some y =>
      rw [List.filterMap_cons_some hx, List.nodup_cons] at hn
      rcases List.mem_cons.mp ha with rfl | ha' <;> rcases List.mem_cons.mp hb with rfl | hb'
      · rfl
      · rw [hx] at fa; cases fa; exact absurd (mem _ hb' fb) hn.1
      · rw [hx] at fb; cases fb; exact absurd (mem _ ha' fa) hn.1
      · exact inj_of_nodup_filterMap hn.2 ha' hb' fa fb

theorem Item.names_eq {s : Bytes} {i : Item} (h : i.names s = true) : i = .leaf s ∨ ∃ n, i = .num s n := by
  cases i with
  | leaf c => simp [Item.names] at h; simp [h]
  | num c n => simp [Item.names] at h; simp [h]
  | date => simp [Item.names] at h

/-- In such a list an item is dropped only if it is repeated. -/
theorem blocked_mem {is P : List Item} {i : Item} (h : ItemsOk mk (P ++ i :: is)) (hb : i.blocked P = true) :
    i ∈ P ∧ ∃ s, i = .leaf s := by
  cases i with
  | leaf s =>
    refine ⟨?_, s, rfl⟩
    simp only [Item.blocked, List.any_eq_true] at hb
    obtain ⟨x, hx, hn⟩ := hb
    rcases Item.names_eq hn with rfl | ⟨n, rfl⟩
    · exact hx
    · exact absurd (by simp) (h.2 s n (by simp [hx]))
  | num s n =>
    exfalso
    simp only [Item.blocked] at hb
    split at hb
    · rename_i c hf
      rcases find_names_shape hf with h1 | ⟨n, h1⟩
      · cases h1
        exact h.2 s n (by simp) (by simp [List.mem_of_find?_eq_some hf])
      · cases h1
    · cases hb
  | date p m d y =>
    exfalso
    simp only [Item.blocked, List.any_eq_true] at hb
    obtain ⟨x, hx, hn⟩ := hb
    cases x with
    | leaf => simp at hn
    | num => simp at hn
    | date q m' d' y' =>
      simp only [decide_eq_true_eq] at hn
      subst hn
      have := h.1
      rw [List.filterMap_append, List.nodup_append] at this
      refine this.2.2 (p ++ b!":time") ?_ (p ++ b!":time") ?_ rfl
      · exact List.mem_filterMap.mpr ⟨_, hx, by simp [Item.value]⟩
      · exact List.mem_filterMap.mpr ⟨.date p m d y, by simp, by simp [Item.value]⟩

theorem contrib_mem {α : Type} (f : Item → List α) (x : α) : ∀ (is P : List Item), ItemsOk mk (P ++ is) →
    (x ∈ contrib f P is ∨ (∃ i ∈ P, x ∈ f i) ↔ ∃ i ∈ P ++ is, x ∈ f i)
  | [], P, _ => by simp [contrib]
  | i :: is, P, h => by
    have ih := contrib_mem f x is (P ++ [i]) (by simpa using h)
    have e : P ++ [i] ++ is = P ++ i :: is := by simp
    rw [e] at ih
    rw [← ih]
    simp only [contrib]
    by_cases hb : i.blocked P = true
    · have hm := (blocked_mem h hb).1
      simp only [hb, if_true, List.nil_append]
      constructor
      · rintro (h | ⟨j, hj, hx⟩)
        · exact Or.inl h
        · exact Or.inr ⟨j, by simp [hj], hx⟩
      · rintro (h | ⟨j, hj, hx⟩)
        · exact Or.inl h
        · simp only [List.mem_append, List.mem_singleton] at hj
          rcases hj with hj | rfl
          · exact Or.inr ⟨j, hj, hx⟩
          · exact Or.inr ⟨j, hm, hx⟩
    · simp only [hb, Bool.false_eq_true, if_false, List.mem_append, List.mem_singleton]
      constructor
      · rintro ((h | h) | ⟨j, hj, hx⟩)
        · exact Or.inr ⟨i, Or.inr rfl, h⟩
        · exact Or.inl h
        · exact Or.inr ⟨j, Or.inl hj, hx⟩
      · rintro (h | ⟨j, hj | rfl, hx⟩)
        · exact Or.inl (Or.inr h)
        · exact Or.inr ⟨j, hj, hx⟩
        · exact Or.inl (Or.inl hx)

theorem attrs_mem {is : List Item} (h : ItemsOk mk is) (x : Bytes) :
    x ∈ contrib (Item.strings mk) [] is ↔ ∃ i ∈ is, x ∈ i.strings mk := by
  simpa using contrib_mem (Item.strings mk) x is [] (by simpa using h)

theorem AExpr.items_toks : ∀ (a : AExpr) (i : Item), i ∈ a.items → ∀ t ∈ i.toks, t ∈ a.toks
  | .item i, j, hj, t, ht => by simp only [AExpr.items, List.mem_singleton] at hj; subst hj; exact ht
  | .pre a, j, hj, t, ht => by simp [AExpr.toks, a.items_toks j hj t ht]
  | .post a, j, hj, t, ht => by simp [AExpr.toks, a.items_toks j hj t ht]
  | .cat a b, j, hj, t, ht => by
    simp only [AExpr.items, List.mem_append] at hj
    rcases hj with hj | hj
    · simp [AExpr.toks, a.items_toks j hj t ht]
    · simp [AExpr.toks, b.items_toks j hj t ht]

theorem AExpr.items_valid : ∀ (a : AExpr), a.valid = true → ∀ i ∈ a.items, i.valid = true
  | .item i, h, j, hj => by simp only [AExpr.items, List.mem_singleton] at hj; subst hj; exact h
  | .pre a, h, j, hj => a.items_valid h j hj
  | .post a, h, j, hj => a.items_valid h j hj
  | .cat a b, h, j, hj => by
    simp only [AExpr.valid, Bool.and_eq_true] at h
    simp only [AExpr.items, List.mem_append] at hj
    rcases hj with hj | hj
    · exact a.items_valid h.1 j hj
    · exact b.items_valid h.2 j hj

/-- What is known of an item that came out of the scanner and was accepted. -/
def Item.Ok (i : Item) : Prop := i.valid = true ∧ ∀ t ∈ i.toks, TokOk t

theorem NumSyn.fits {n : NumSyn} (h : n.valid = true) : Width n.val.bits ∧ n.val.val.toNat < 2 ^ n.val.bits := by
  cases n with
  | exp n b =>
    obtain ⟨hb, hv⟩ := (checkValidBit_iff n b).mp h
    have hb' : b.toNat % 65536 = b.toNat := by rcases hb with h | h | h | h <;> omega
    simp only [NumSyn.val, createExpint, hb']
    refine ⟨hb, ?_⟩
    have := Nat.two_pow_pos b.toNat
    omega
  | flex n => exact ⟨Or.inr (Or.inr (Or.inr rfl)), n.toNat_lt⟩

theorem Item.value_ok {i : Item} (h : i.Ok) {b : Bytes} {v : UInt32} {w : Nat} (hv : i.value mk = some (b, v, w)) :
    Width w ∧ v.toNat < 2 ^ w ∧ (¬ b!"expint" <:+: b) ∧ i.strings mk = assignStmt b ⟨v, w⟩ := by
  cases i with
  | leaf s => simp [Item.value] at hv
  | num s n =>
    simp only [Item.value, Option.some.injEq, Prod.mk.injEq] at hv
    obtain ⟨rfl, rfl, rfl⟩ := hv
    have := NumSyn.fits h.1
    exact ⟨this.1, this.2, name_no_expint (h.2 (.leaf s) (by simp [Item.toks])), rfl⟩
  | date p m d y =>
    simp only [Item.value, Option.some.injEq, Prod.mk.injEq] at hv
    obtain ⟨rfl, rfl, rfl⟩ := hv
    exact ⟨Or.inr (Or.inr (Or.inr rfl)), UInt32.toNat_lt _,
      no_expint_time (name_no_expint (h.2 (.leaf p) (by simp [Item.toks]))), rfl⟩

theorem itemsNum_some {is : List Item} {base : Bytes} {x : UInt32 × Nat} (h : itemsNum mk is base = some x) :
    ∃ i ∈ is, i.value mk = some (base, x) := by
  obtain ⟨i, hi, h'⟩ := List.exists_of_findSome?_eq_some h
  clear h
  rename' h' => h
  refine ⟨i, hi, ?_⟩
  cases hv : i.value mk with
  | none => rw [hv] at h; cases h
  | some y =>
    obtain ⟨b, v⟩ := y
    rw [hv] at h
    simp only at h
    split at h
    · rename_i e; subst e; cases h; rfl
    · cases h

theorem itemsNum_none {is : List Item} {base : Bytes} (h : itemsNum mk is base = none) :
    ∀ i ∈ is, ∀ x, i.value mk ≠ some (base, x) := by
  intro i hi x hv
  have := List.findSome?_eq_none_iff.mp h i hi
  rw [hv] at this
  simp at this

/-- The strings of an item that start with the markers of `base`. -/
theorem Item.strings_base {i : Item} (h : i.Ok) {base x : Bytes} (hb : ¬ b!"expint" <:+: base)
    (hx : x ∈ i.strings mk) (hp : base ++ b!"_expint" <+: x) : ∃ v, i.value mk = some (base, v) := by
  have key : ∀ b v w, i.value mk = some (b, v, w) → b = base := by
    intro b v w hv
    obtain ⟨h1, h2, h3, h4⟩ := Item.value_ok h hv
    rw [h4, mem_assignStmt h1 h2] at hx
    obtain ⟨k, _, rfl⟩ := hx
    obtain ⟨r, hr⟩ := hp
    simp only [msuf, List.append_assoc] at hr
    exact (base_unique hb h3 hr).symm
  cases i with
  | leaf s =>
    exfalso
    simp only [Item.strings, List.mem_singleton] at hx
    subst hx
    apply name_no_expint (h.2 (.leaf x) (by simp [Item.toks]))
    obtain ⟨r, rfl⟩ := hp
    exact ⟨base ++ [95], r, by simp⟩
  | num s n =>
    have := key s n.val.val n.val.bits rfl
    subst this; exact ⟨_, rfl⟩
  | date p m d y =>
    have := key (p ++ b!":time") (validateDate mk (getMonth m) d.val y.val) 32 rfl
    subst this; exact ⟨_, rfl⟩

/-- A parsed list says about every numeric attribute what its items say. -/
theorem items_assigns {is : List Item} (h : ItemsOk mk is) (hok : ∀ i ∈ is, i.Ok) {A : List Bytes}
    (hA : ∀ x, x ∈ A ↔ ∃ i ∈ is, x ∈ i.strings mk) {base : Bytes} (hb : ¬ b!"expint" <:+: base) :
    Assigns A (itemsNum mk is) base := by
  unfold Assigns
  cases hn : itemsNum mk is base with
  | none =>
    simp only
    intro x hx hp
    obtain ⟨i, hi, hs⟩ := (hA x).mp hx
    obtain ⟨v, hv⟩ := Item.strings_base (hok i hi) hb hs hp
    exact itemsNum_none hn i hi v hv
  | some y =>
    obtain ⟨v, w⟩ := y
    obtain ⟨i, hi, hv⟩ := itemsNum_some hn
    obtain ⟨h1, h2, h3, h4⟩ := Item.value_ok (hok i hi) hv
    refine ⟨h1, h2, fun x hp => ?_⟩
    rw [hA]
    constructor
    · rintro ⟨j, hj, hs⟩
      obtain ⟨v', hv'⟩ := Item.strings_base (hok j hj) hb hs hp
      have : i = j := inj_of_nodup_filterMap h.1 (k := base) hi hj (by simp [hv]) (by simp [hv'])
      subst this
      rwa [h4] at hs
    · intro hs
      exact ⟨i, hi, by rwa [h4]⟩

/-- Plain attributes are present exactly when they are listed. -/
theorem items_plain {is : List Item} (hok : ∀ i ∈ is, i.Ok) {A : List Bytes}
    (hA : ∀ x, x ∈ A ↔ ∃ i ∈ is, x ∈ i.strings mk) {s : Bytes} (hs : ¬ b!"expint" <:+: s) :
    s ∈ A ↔ Item.leaf s ∈ is := by
  rw [hA]
  constructor
  · rintro ⟨i, hi, hx⟩
    have key : ∀ b v w, i.value mk = some (b, v, w) → False := by
      intro b v w hv
      obtain ⟨h1, h2, h3, h4⟩ := Item.value_ok (hok i hi) hv
      rw [h4, mem_assignStmt h1 h2] at hx
      obtain ⟨k, _, rfl⟩ := hx
      exact hs ⟨b ++ [95], _, by simp only [msuf, List.append_assoc]; rfl⟩
    cases i with
    | leaf c => simp only [Item.strings, List.mem_singleton] at hx; subst hx; exact hi
    | num c n => exact (key _ _ _ rfl).elim
    | date p m d y => exact (key _ _ _ rfl).elim
  · intro h
    exact ⟨_, h, by simp [Item.strings]⟩

/-! ### A policy against a list -/

theorem CondSyn.base_clean {c : CondSyn} (ht : ∀ t ∈ c.toks, TokOk t) : ¬ b!"expint" <:+: c.base := by
  have hd : ∀ s, isName s = true → ¬ b!"expint" <:+: dateAttr s := by
    intro s hs
    unfold dateAttr
    split
    · have := no_expint_time (name_no_expint hs)
      simpa using this
    · exact name_no_expint hs
  cases c with
  | cmp op s n => exact name_no_expint (ht (.leaf s) (by simp [CondSyn.toks]))
  | rangeO s lo hi => exact name_no_expint (ht (.leaf s) (by simp [CondSyn.toks]))
  | rangeC s lo hi => exact name_no_expint (ht (.leaf s) (by simp [CondSyn.toks]))
  | date op s m d y => exact hd s (ht (.leaf s) (by simp [CondSyn.toks]))
  | dateRange s m d1 d2 y => exact hd s (ht (.leaf s) (by simp [CondSyn.toks]))

theorem Expr.conds_toks : ∀ (e : Expr), ∀ c ∈ e.conds, ∀ t ∈ c.toks, t ∈ e.toks
  | .leaf s => by simp [Expr.conds]
  | .cond c => fun c' hc t ht => by
    simp only [Expr.conds, List.mem_singleton] at hc; subst hc; exact ht
  | .paren e => fun c hc t ht => by simp [Expr.toks, e.conds_toks c hc t ht]
  | .or l r => fun c hc t ht => by
    simp only [Expr.conds, List.mem_append] at hc
    rcases hc with hc | hc
    · simp [Expr.toks, l.conds_toks c hc t ht]
    · simp [Expr.toks, r.conds_toks c hc t ht]
  | .and l r => fun c hc t ht => by
    simp only [Expr.conds, List.mem_append] at hc
    rcases hc with hc | hc
    · simp [Expr.toks, l.conds_toks c hc t ht]
    · simp [Expr.toks, r.conds_toks c hc t ht]

theorem Expr.holds_congr {has has' : Bytes → Prop} {num : Bytes → Option (UInt32 × Nat)} : ∀ (e : Expr),
    (∀ s ∈ e.plain, has s ↔ has' s) → (e.holds mk has num ↔ e.holds mk has' num)
  | .leaf s, h => h s (by simp [Expr.plain])
  | .cond c, _ => Iff.rfl
  | .paren e, h => e.holds_congr h
  | .or l r, h => by
    simp only [Expr.holds]
    rw [l.holds_congr (fun s hs => h s (by simp [Expr.plain, hs])), r.holds_congr (fun s hs => h s (by simp [Expr.plain, hs]))]
  | .and l r, h => by
    simp only [Expr.holds]
    rw [l.holds_congr (fun s hs => h s (by simp [Expr.plain, hs])), r.holds_congr (fun s hs => h s (by simp [Expr.plain, hs]))]

/-- The tree of a parsed policy and the strings of a parsed list: satisfied exactly when the formula holds. -/
theorem text_sat {e : Expr} {a : AExpr} (hv : e.valid = true) (ht : ∀ t ∈ e.toks, TokOk t) (hd : e.DatesOk mk)
    (hn : e.NamesOk) (hva : a.valid = true) (hta : ∀ t ∈ a.toks, TokOk t) (hi : ItemsOk mk a.items)
    {d d' : Drv} {t : TNode} (h : e.eval mk d = .ok (t, d')) :
    sat (contrib (Item.strings mk) [] a.items) t = true ↔
      e.holds mk (fun s => Item.leaf s ∈ a.items) (itemsNum mk a.items) := by
  have hok : ∀ i ∈ a.items, i.Ok := fun i h => ⟨a.items_valid hva i h, fun t ht => hta t (a.items_toks i h t ht)⟩
  rw [e.eval_sat d d' t hv ht hd hn (fun c hc => items_assigns hi hok (attrs_mem hi)
    (CondSyn.base_clean (fun t h => ht t (e.conds_toks c hc t h)))) h]
  apply e.holds_congr
  intro s hs
  exact items_plain hok (attrs_mem hi) (name_no_expint (ht (.leaf s) (e.plain_toks s hs)))

end Abe
