import Verif.Spec.PrintExact
import Verif.Props.PolicyEdits
import Verif.Props.HashAttr
/-!
# C158: exactly which policies can be read from their printed text
-/
set_option linter.unusedSimpArgs false
set_option linter.unusedSectionVars false
set_option autoImplicit false
namespace Abe
open Edit
variable {mk : Mktime}
namespace Printed

/-! ### Names and their pieces -/

/-- A word the scanner takes as a whole. -/
def Wordy (c : Bytes) : Prop := ∃ b w, c = b :: w ∧ isStart b = true ∧ w.all isWord = true

theorem pieces : ∀ (s cur : Bytes), (58 : UInt8) ∉ cur → ∀ x ∈ splitAux 58 cur s, x ≠ [] ∧ (58 : UInt8) ∉ x ∧ x <:+: cur ++ s
  | [], cur, h, x, hx => by
    simp only [splitAux] at hx
    split at hx
    · cases hx
    · next h0 => simp only [List.mem_singleton] at hx; subst hx; exact ⟨h0, h, by simp⟩
  | c :: s, cur, h, x, hx => by
    simp only [splitAux] at hx
    split at hx
    · next hc =>
      have tail : ∀ x ∈ splitAux 58 [] s, x ≠ [] ∧ (58 : UInt8) ∉ x ∧ x <:+: cur ++ c :: s := fun x hx => by
        obtain ⟨h1, h2, u, v, h3⟩ := pieces s [] (by simp) x hx
        simp only [List.nil_append] at h3
        exact ⟨h1, h2, cur ++ c :: u, v, by rw [← h3]; simp⟩
      split at hx
      · exact tail x hx
      · next h0 =>
        rcases List.mem_cons.mp hx with rfl | hx
        · exact ⟨h0, h, ⟨[], c :: s, by simp⟩⟩
        · exact tail x hx
    · next hc =>
      have := pieces s (cur ++ [c]) (by simp only [List.mem_append, List.mem_singleton, not_or]; exact ⟨h, fun h' => hc h'.symm⟩) x hx
      simpa using this

theorem first_piece : ∀ (s cur : Bytes), cur ≠ [] → ∃ p rest, splitAux 58 cur s = p :: rest ∧ cur <+: p
  | [], cur, h => ⟨cur, [], by simp [splitAux, h], List.prefix_refl _⟩
  | c :: s, cur, h => by
    simp only [splitAux]
    split
    · exact ⟨_, _, by first | rw [if_neg h] | rfl, List.prefix_refl _⟩
    · obtain ⟨p, rest, h1, h2⟩ := first_piece s (cur ++ [c]) (by simp)
      exact ⟨p, rest, h1, (List.prefix_append cur [c]).trans h2⟩

theorem split_piece : ∀ (x cur r : Bytes), (58 : UInt8) ∉ x → cur ++ x ≠ [] →
    splitAux 58 cur (x ++ 58 :: r) = (cur ++ x) :: splitAux 58 [] r
  | [], cur, r, _, h => by
    rw [List.append_nil] at h ⊢
    simp [splitAux, h]
  | c :: x, cur, r, hx, _ => by
    simp only [List.mem_cons, not_or] at hx
    simp only [List.cons_append, splitAux, if_neg (Ne.symm hx.1)]
    rw [split_piece x (cur ++ [c]) r hx.2 (by simp)]
    simp

theorem split_last : ∀ (x cur : Bytes), (58 : UInt8) ∉ x → cur ++ x ≠ [] → splitAux 58 cur x = [cur ++ x]
  | [], cur, _, h => by rw [List.append_nil] at h ⊢; simp [splitAux, h]
  | c :: x, cur, hx, _ => by
    simp only [List.mem_cons, not_or] at hx
    simp only [splitAux, if_neg (Ne.symm hx.1)]
    rw [split_last x (cur ++ [c]) hx.2 (by simp)]
    simp

theorem split_join : ∀ (ps : List Bytes), (∀ x ∈ ps, x ≠ [] ∧ (58 : UInt8) ∉ x) → splitAux 58 [] (joinColon ps) = ps
  | [], _ => rfl
  | [a], h => by
    have := h a (by simp)
    rw [joinColon, split_last a [] this.2 (by simpa using this.1)]; rfl
  | a :: b :: r, h => by
    have := h a (by simp)
    rw [joinColon, List.append_assoc, List.singleton_append, split_piece a [] _ this.2 (by simpa using this.1),
      split_join (b :: r) (fun x hx => h x (List.mem_cons_of_mem _ hx))]
    rfl

theorem join_mem : ∀ (ps : List Bytes) (x : UInt8), x ∈ joinColon ps → x = 58 ∨ ∃ p ∈ ps, x ∈ p
  | [], x, h => by cases h
  | [a], x, h => Or.inr ⟨a, by simp, h⟩
  | a :: b :: r, x, h => by
    simp only [joinColon, List.append_assoc, List.singleton_append, List.mem_append, List.mem_cons] at h
    rcases h with h | rfl | h
    · exact Or.inr ⟨a, by simp, h⟩
    · exact Or.inl rfl
    · rcases join_mem (b :: r) x h with h | ⟨p, hp, h⟩
      · exact Or.inl h
      · exact Or.inr ⟨p, List.mem_cons_of_mem _ hp, h⟩

theorem start_word (b : UInt8) (h : isStart b = true) : isWord b = true := by simp [isWord, h]

/-- What `check_attribute` makes of a word. -/
theorem check_word {c : Bytes} (h : Wordy c) : ∃ p a, checkAttribute c = .ok (p, a) ∧ Wordy (completeLabel p a) ∧
    checkAttribute (completeLabel p a) = .ok (p, a) ∧
    ((58 : UInt8) ∉ c ∧ completeLabel p a = c ∨
      ∃ rest, splitAux 58 [] c = p :: rest ∧ p ≠ [] ∧ (58 : UInt8) ∉ p ∧ a = joinColon rest ∧ (58 : UInt8) ∈ c ∧
        ∀ x ∈ p :: rest, x ≠ [] ∧ (58 : UInt8) ∉ x ∧ x <:+: c) := by
  obtain ⟨b, w, rfl, hb, hw⟩ := h
  have hb58 := start_ne58 b hb
  by_cases hm : (58 : UInt8) ∈ b :: w
  · have hsp : splitAux 58 [] (b :: w) = splitAux 58 [b] w := by
      simp only [splitAux, if_neg hb58]; rfl
    obtain ⟨p, rest, h1, h2⟩ := first_piece w [b] (by simp)
    have hp := pieces (b :: w) [] (by simp)
    rw [hsp, h1] at hp
    have hpp := hp p (by simp)
    have hchk : checkAttribute (b :: w) = .ok (p, joinColon rest) := by
      unfold checkAttribute split
      rw [if_pos hm, hsp, h1]
    have hlab : completeLabel p (joinColon rest) = p ++ 58 :: joinColon rest := by
      simp [completeLabel, hpp.1]
    have hall : ∀ x ∈ b :: w, isWord x = true := by
      intro x hx
      rcases List.mem_cons.mp hx with rfl | hx
      · exact start_word _ hb
      · exact List.all_eq_true.mp hw x hx
    refine ⟨p, joinColon rest, hchk, ?_, ?_, Or.inr ⟨rest, by rw [hsp, h1], hpp.1, hpp.2.1, rfl, hm, fun x hx => by simpa using hp x hx⟩⟩
    · rw [hlab]
      obtain ⟨p', rfl⟩ := h2
      refine ⟨b, p' ++ 58 :: joinColon rest, by simp, hb, ?_⟩
      rw [List.all_eq_true]
      intro x hx
      simp only [List.mem_append, List.mem_cons] at hx
      rcases hx with hx | rfl | hx
      · exact hall x (by simpa using hpp.2.2.subset (List.mem_append_right _ hx))
      · decide
      · rcases join_mem rest x hx with rfl | ⟨q, hq, hx⟩
        · decide
        · exact hall x (by simpa using (hp q (List.mem_cons_of_mem _ hq)).2.2.subset hx)
    · rw [hlab]
      unfold checkAttribute split
      rw [if_pos (by simp), split_piece p [] _ hpp.2.1 (by simpa using hpp.1),
        split_join rest (fun x hx => ⟨(hp x (List.mem_cons_of_mem _ hx)).1, (hp x (List.mem_cons_of_mem _ hx)).2.1⟩)]
      rfl
  · have hchk : checkAttribute (b :: w) = .ok ([], b :: w) := by unfold checkAttribute; rw [if_neg hm]
    have hlab : completeLabel [] (b :: w) = b :: w := by simp [completeLabel]
    exact ⟨[], b :: w, hchk, by rw [hlab]; exact ⟨b, w, rfl, hb, hw⟩, by rw [hlab]; exact hchk, Or.inl ⟨hm, hlab⟩⟩

/-! ### Words containing `expint` -/

theorem infix_sep {k a b : Bytes} (hk : (58 : UInt8) ∉ k) (h : k <:+: a ++ 58 :: b) : k <:+: a ∨ k <:+: b := by
  obtain ⟨u, v, h⟩ := h
  rw [List.append_assoc] at h
  rcases List.append_eq_append_iff.mp h with ⟨a', h1, h2⟩ | ⟨c', h1, h2⟩
  · rcases List.append_eq_append_iff.mp h2 with ⟨a'', h3, h4⟩ | ⟨c'', h3, h4⟩
    · exact Or.inl ⟨u, a'', by rw [h1, h3]; simp⟩
    · cases c'' with
      | nil => exact Or.inl ⟨u, [], by rw [h1, h3]; simp⟩
      | cons x c'' =>
        simp only [List.cons_append, List.cons.injEq] at h4
        exact absurd (by rw [h3, ← h4.1]; simp) hk
  · cases c' with
    | nil =>
      cases k with
      | nil => exact Or.inl ⟨[], a, by simp⟩
      | cons x k =>
        simp only [List.nil_append, List.cons_append, List.cons.injEq] at h2
        exact absurd (by rw [← h2.1]; simp) hk
    | cons x c' =>
      simp only [List.cons_append, List.cons.injEq] at h2
      exact Or.inr ⟨c', v, by rw [h2.2]; simp⟩

theorem join_infix {k : Bytes} (hk : (58 : UInt8) ∉ k) (h0 : k ≠ []) : ∀ ps : List Bytes,
    k <:+: joinColon ps ↔ ∃ p ∈ ps, k <:+: p
  | [] => by simp [joinColon, h0]
  | [a] => by simp [joinColon]
  | a :: b :: r => by
    rw [joinColon, List.append_assoc, List.singleton_append]
    constructor
    · intro h
      rcases infix_sep hk h with h | h
      · exact ⟨a, by simp, h⟩
      · obtain ⟨p, hp, h⟩ := (join_infix hk h0 (b :: r)).mp h
        exact ⟨p, List.mem_cons_of_mem _ hp, h⟩
    · rintro ⟨p, hp, h⟩
      rcases List.mem_cons.mp hp with rfl | hp
      · exact h.trans (List.prefix_append _ _).isInfix
      · exact ((join_infix hk h0 (b :: r)).mpr ⟨p, hp, h⟩).trans ⟨a ++ [58], [], by simp⟩

theorem piece_infix {k : Bytes} (hk : (58 : UInt8) ∉ k) (h0 : k ≠ []) : ∀ (s cur : Bytes), k <:+: cur ++ s →
    ∃ p ∈ splitAux 58 cur s, k <:+: p
  | [], cur, h => by
    rw [List.append_nil] at h
    have : cur ≠ [] := by
      rintro rfl
      exact h0 (by simpa using h)
    exact ⟨cur, by simp [splitAux, this], h⟩
  | c :: s, cur, h => by
    simp only [splitAux]
    split
    · next hc =>
      subst hc
      rcases infix_sep hk h with h | h
      · have : cur ≠ [] := by
          rintro rfl
          exact h0 (by simpa using h)
        exact ⟨cur, by simp [this], h⟩
      · obtain ⟨p, hp, h⟩ := piece_infix hk h0 s [] h
        refine ⟨p, ?_, h⟩
        split
        · exact hp
        · exact List.mem_cons_of_mem _ hp
    · exact piece_infix hk h0 s (cur ++ [c]) (by simpa using h)

/-- The printed form of an attribute. -/
def lab (c : Bytes) : Bytes := match checkAttribute c with
  | .ok (p, a) => completeLabel p a
  | _ => []

theorem lab_infix {c : Bytes} (h : Wordy c) {k : Bytes} (hk : (58 : UInt8) ∉ k) (h0 : k ≠ []) : k <:+: lab c ↔ k <:+: c := by
  obtain ⟨p, a, h1, _, _, ⟨_, h2⟩ | ⟨rest, h2, h3, _, rfl, _, h4⟩⟩ := check_word h
  · simp only [lab, h1, h2]
  · simp only [lab, h1]
    have e : completeLabel p (joinColon rest) = p ++ 58 :: joinColon rest := by simp [completeLabel, h3]
    rw [e]
    constructor
    · intro h
      rcases infix_sep hk h with h | h
      · exact h.trans (h4 p (by simp)).2.2
      · obtain ⟨q, hq, h⟩ := (join_infix hk h0 rest).mp h
        exact h.trans (h4 q (by simp [hq])).2.2
    · intro h
      obtain ⟨q, hq, h⟩ := piece_infix hk h0 c [] (by simpa using h)
      rw [h2] at hq
      rcases List.mem_cons.mp hq with rfl | hq
      · exact h.trans (List.prefix_append _ _).isInfix
      · exact ((join_infix hk h0 rest).mpr ⟨q, hq, h⟩).trans ⟨p ++ [58], [], by simp⟩

theorem lab_marker {c : Bytes} (h : Wordy c) (he : b!"expint" <:+: c) : actLeaf (lab c) = .error := by
  have h1 : hasSub b!"expint" (lab c) = true := hasSub_iff.mpr ((lab_infix h (by decide) (by decide)).mpr he)
  have hk : ∀ x, hasSub b!"expint" x = false → lab c ≠ x := by
    rintro x hx rfl
    rw [hx] at h1; cases h1
  unfold actLeaf
  rw [if_neg (hk _ (by decide)), if_neg (hk _ (by decide)), if_neg (not_or.mpr ⟨hk _ (by decide), hk _ (by decide)⟩),
    if_neg (not_or.mpr ⟨hk _ (by decide), hk _ (by decide)⟩), if_neg (not_or.mpr ⟨hk _ (by decide), hk _ (by decide)⟩), if_pos h1]

theorem split_colons : ∀ n, splitAux 58 [] (List.replicate n 58) = []
  | 0 => rfl
  | n + 1 => by simp [List.replicate_succ, splitAux, split_colons n]

theorem colons_of : ∀ (s : Bytes), splitAux 58 [] s = [] → s = List.replicate s.length 58
  | [], _ => rfl
  | c :: s, h => by
    simp only [splitAux] at h
    by_cases hc : c = 58
    · rw [if_pos hc] at h
      rw [List.length_cons, List.replicate_succ, ← colons_of s h, hc]
    · rw [if_neg hc] at h
      obtain ⟨p, r, h', _⟩ := first_piece s ([] ++ [c]) (by simp)
      rw [h'] at h; cases h

theorem single_piece : ∀ (s cur p : Bytes), cur ≠ [] → splitAux 58 cur s = [p] → ∃ n, cur ++ s = p ++ List.replicate n 58
  | [], cur, p, h, hs => by
    simp only [splitAux, if_neg h, List.cons.injEq, and_true] at hs
    exact ⟨0, by simp [hs]⟩
  | c :: s, cur, p, h, hs => by
    simp only [splitAux] at hs
    by_cases hc : c = 58
    · rw [if_pos hc, if_neg h, List.cons.injEq] at hs
      refine ⟨s.length + 1, ?_⟩
      rw [hs.1, List.replicate_succ, ← colons_of s hs.2, hc]
    · rw [if_neg hc] at hs
      obtain ⟨n, h⟩ := single_piece s (cur ++ [c]) p (by simp) hs
      exact ⟨n, by simpa using h⟩

theorem name_wordy {c : Bytes} (h : isName c = true) : Wordy c := by
  obtain ⟨b, w, h1, h2, h3, _⟩ := name_parts h
  exact ⟨b, w, h1, h2, h3⟩

theorem lab_bracketed {c : Bytes} (h : Bracketed c) : actLeaf (lab c) = .startPolicy ∨ actLeaf (lab c) = .startAttr := by
  have key : ∀ (x : Bytes) (n : Nat), x ≠ [] → (58 : UInt8) ∉ x → lab (x ++ 58 :: 58 :: List.replicate n 58) = x ++ [58] := by
    intro x n h0 hx
    have : checkAttribute (x ++ 58 :: 58 :: List.replicate n 58) = .ok (x, []) := by
      unfold checkAttribute split
      rw [if_pos (by simp), split_piece x [] _ hx (by simpa using h0)]
      have e : splitAux 58 [] (58 :: List.replicate n 58) = [] := split_colons (n + 1)
      rw [e]; rfl
    simp [lab, this, completeLabel, h0]
  obtain ⟨n, rfl | rfl⟩ := h
  · left
    have := key b!"[0]" n (by decide) (by decide)
    rw [show b!"[0]::" ++ List.replicate n (58 : UInt8) = b!"[0]" ++ 58 :: 58 :: List.replicate n 58 from rfl, this]; rfl
  · right
    have := key b!"[1]" n (by decide) (by decide)
    rw [show b!"[1]::" ++ List.replicate n (58 : UInt8) = b!"[1]" ++ 58 :: 58 :: List.replicate n 58 from rfl, this]; rfl

theorem lab_name {c : Bytes} (h : isName c = true) (hb : ¬ Bracketed c) : actLeaf (lab c) = .leaf (lab c) := by
  have hw := name_wordy h
  have hex : hasSub b!"expint" (lab c) = false := by
    rw [Bool.eq_false_iff]
    intro h'
    exact name_no_expint h ((lab_infix hw (by decide) (by decide)).mp (hasSub_iff.mp h'))
  obtain ⟨b, w, hbw, hs, _, hr⟩ := name_parts h
  have hnot : ∀ x, isReserved x = true → c ≠ x := by
    rintro x hx rfl
    rw [hx] at hr; cases hr
  have done : (∀ x, x ∈ [b!"[0]:", b!"[1]:", b!"or", b!"OR", b!"and", b!"AND", b!"in", b!"IN"] → lab c ≠ x) → actLeaf (lab c) = .leaf (lab c) := by
    intro hk
    unfold actLeaf
    rw [if_neg (hk _ (by decide)), if_neg (hk _ (by decide)), if_neg (not_or.mpr ⟨hk _ (by decide), hk _ (by decide)⟩),
      if_neg (not_or.mpr ⟨hk _ (by decide), hk _ (by decide)⟩), if_neg (not_or.mpr ⟨hk _ (by decide), hk _ (by decide)⟩), hex]
    simp
  refine done fun x hx => ?_
  obtain ⟨p, a, h1, _, _, ⟨_, h2⟩ | ⟨rest, h2, h3, h58, rfl, hc58, h4⟩⟩ := check_word hw
  · simp only [lab, h1, h2]
    apply hnot
    revert hx; revert x; decide
  · simp only [lab, h1]
    have e : completeLabel p (joinColon rest) = p ++ 58 :: joinColon rest := by simp [completeLabel, h3]
    rw [e]
    rintro rfl
    have hrest : ∀ y : Bytes, (58 : UInt8) ∉ y → p ++ 58 :: joinColon rest = y ++ [58] → p = y ∧ rest = [] := by
      intro y hy he
      obtain ⟨rfl, h6⟩ := split_unique (c := 58) h58 hy he
      refine ⟨rfl, ?_⟩
      cases rest with
      | nil => rfl
      | cons q r =>
        have hq := (h4 q (by simp)).1
        cases r with
        | nil => exact absurd h6 hq
        | cons q' r => simp [joinColon] at h6
    have hmem : (58 : UInt8) ∈ p ++ 58 :: joinColon rest := by simp
    have hsp : splitAux 58 [] c = splitAux 58 [b] w := by
      rw [hbw]; simp only [splitAux, if_neg (start_ne58 b hs)]; rfl
    have fin : ∀ y : Bytes, (58 : UInt8) ∉ y → p ++ 58 :: joinColon rest = y ++ [58] → y ≠ c → y ++ [58] ≠ c →
        ∃ n, c = y ++ 58 :: 58 :: List.replicate n 58 := by
      intro y hy he hc0 hc1
      obtain ⟨rfl, rfl⟩ := hrest y hy he
      rw [hsp] at h2
      obtain ⟨n, hn⟩ := single_piece w [b] p (by simp) h2
      rw [List.singleton_append, ← hbw] at hn
      match n, hn with
      | 0, hn => exact absurd (by simpa using hn.symm) hc0
      | 1, hn => exact absurd hn.symm hc1
      | n + 2, hn => exact ⟨n, by simpa [List.replicate_succ] using hn⟩
    simp only [List.mem_cons, List.not_mem_nil, or_false] at hx
    rcases hx with hx | hx | hx | hx | hx | hx | hx | hx
    · obtain ⟨n, hn⟩ := fin b!"[0]" (by decide) hx (by rintro rfl; revert hc58; decide) (fun h => hnot b!"[0]:" (by decide) h.symm)
      exact hb ⟨n, Or.inl hn⟩
    · obtain ⟨n, hn⟩ := fin b!"[1]" (by decide) hx (by rintro rfl; revert hc58; decide) (fun h => hnot b!"[1]:" (by decide) h.symm)
      exact hb ⟨n, Or.inr hn⟩
    all_goals (rw [hx] at hmem; revert hmem; decide)

/-! ### Printed trees -/

/-- A tree, the tokens of its printed text, and the expression that text is read as. -/
inductive Prints : TNode → List Tok → Expr → Prop
  | leaf {c p a i} : Wordy c → checkAttribute c = .ok (p, a) →
      Prints (.leaf {} p a (some i)) [actLeaf (completeLabel p a)] (.leaf (completeLabel p a))
  | or {l r tl tr el er} : Prints l tl el → Prints r tr er →
      Prints (kof2 1 l r) (.chr 40 :: (tl ++ .or :: (tr ++ [.chr 41]))) (.paren (.or el er))
  | and {l r tl tr el er} : Prints l tl el → Prints r tr er →
      Prints (kof2 2 l r) (.chr 40 :: (tl ++ .and :: (tr ++ [.chr 41]))) (.paren (.and el er))

theorem prints_lex {t : TNode} {ts : List Tok} {e : Expr} (h : Prints t ts e) : lex t.str = ts := by
  induction h with
  | @leaf c p a i hw hc =>
    obtain ⟨p', a', h1, ⟨b, w, h2, h3, h4⟩, _⟩ := check_word hw
    rw [hc] at h1; cases h1
    have := lex_word (rest := []) h3 h4 (by simp)
    rw [List.append_nil, ← h2, lex_nil] at this
    exact this
  | @or l r tl tr el er _ _ il ir =>
    have e : (kof2 1 l r).str = 40 :: (l.str ++ 32 :: (b!"or " ++ (r.str ++ 41 :: []))) := by
      simp [kof2, TNode.str, strL]
    rw [e, lex_open, lex_stop_space, lex_or, lex_stop_close, il, ir, lex_nil]
  | @and l r tl tr el er _ _ il ir =>
    have e : (kof2 2 l r).str = 40 :: (l.str ++ 32 :: (b!"and " ++ (r.str ++ 41 :: []))) := by
      simp [kof2, TNode.str, strL]
    rw [e, lex_open, lex_stop_space, lex_and, lex_stop_close, il, ir, lex_nil]

theorem prints_expr {t : TNode} {ts : List Tok} {e : Expr} (h : Prints t ts e) :
    e.valid = true ∧ e.canon = true ∧ e.isOr = false ∧ e.isAnd = false := by
  induction h with
  | leaf _ _ => exact ⟨rfl, rfl, rfl, rfl⟩
  | or _ _ il ir =>
    obtain ⟨a1, a2, a3, a4⟩ := il
    obtain ⟨b1, b2, b3, b4⟩ := ir
    exact ⟨by simp [Expr.valid, a1, b1], by simp [Expr.canon, a2, b2, a3, b3, b4], rfl, rfl⟩
  | and _ _ il ir =>
    obtain ⟨a1, a2, a3, a4⟩ := il
    obtain ⟨b1, b2, b3, b4⟩ := ir
    exact ⟨by simp [Expr.valid, a1, b1], by simp [Expr.canon, a2, b2, a3, b3, b4], rfl, rfl⟩

theorem prints_toks {t : TNode} {ts : List Tok} {e : Expr} (h : Prints t ts e) (hp : ∀ u ∈ e.plain, actLeaf u = .leaf u) : ts = e.toks := by
  induction h with
  | @leaf c p a i _ _ => simp [hp (completeLabel p a) (by simp [Expr.plain]), Expr.toks]
  | or _ _ il ir =>
    rw [il fun u hu => hp u (by simp [Expr.plain, hu]), ir fun u hu => hp u (by simp [Expr.plain, hu])]
    simp [Expr.toks]
  | and _ _ il ir =>
    rw [il fun u hu => hp u (by simp [Expr.plain, hu]), ir fun u hu => hp u (by simp [Expr.plain, hu])]
    simp [Expr.toks]

theorem prints_mem {t : TNode} {ts : List Tok} {e : Expr} (h : Prints t ts e) : ∀ u ∈ e.plain, actLeaf u ∈ ts := by
  induction h with
  | leaf _ _ => intro u hu; simp only [Expr.plain, List.mem_singleton] at hu; subst hu; simp
  | or _ _ il ir =>
    intro u hu
    simp only [Expr.plain, List.mem_append] at hu
    rcases hu with hu | hu
    · have := il u hu; simp [this]
    · have := ir u hu; simp [this]
  | and _ _ il ir =>
    intro u hu
    simp only [Expr.plain, List.mem_append] at hu
    rcases hu with hu | hu
    · have := il u hu; simp [this]
    · have := ir u hu; simp [this]

theorem actLeaf_cases (u : Bytes) : actLeaf u ∈ [Tok.startPolicy, .startAttr, .or, .and, .inn, .error, .leaf u] := by
  unfold actLeaf; split_ifs <;> simp

theorem prints_shape {t : TNode} {ts : List Tok} {e : Expr} (h : Prints t ts e) : ∀ x ∈ ts, x ≠ .chr 44 ∧ x.sym ≠ 0 := by
  induction h with
  | @leaf c p a i _ _ =>
    intro x hx
    simp only [List.mem_singleton] at hx
    have := actLeaf_cases (completeLabel p a)
    rw [← hx] at this
    simp only [List.mem_cons, List.not_mem_nil, or_false] at this
    rcases this with rfl | rfl | rfl | rfl | rfl | rfl | rfl <;> exact ⟨by simp, by simp [Tok.sym]⟩
  | or _ _ il ir =>
    intro x hx
    simp only [List.mem_cons, List.mem_append, List.not_mem_nil, or_false] at hx
    rcases hx with rfl | hx | rfl | hx | rfl
    · exact ⟨by decide, by decide⟩
    · exact il x hx
    · exact ⟨by decide, by decide⟩
    · exact ir x hx
    · exact ⟨by decide, by decide⟩
  | and _ _ il ir =>
    intro x hx
    simp only [List.mem_cons, List.mem_append, List.not_mem_nil, or_false] at hx
    rcases hx with rfl | hx | rfl | hx | rfl
    · exact ⟨by decide, by decide⟩
    · exact il x hx
    · exact ⟨by decide, by decide⟩
    · exact ir x hx
    · exact ⟨by decide, by decide⟩

theorem leafNode_of {d : Drv} {c p a : Bytes} (h : checkAttribute c = .ok (p, a)) : ∃ i d', leafNode d c = .ok (.leaf {} p a (some i), d') := by
  unfold leafNode
  rw [h]
  exact ⟨_, _, rfl⟩

theorem prints_eval {t : TNode} {ts : List Tok} {e : Expr} (h : Prints t ts e) : ∀ d : Drv,
    ∃ t' d', e.eval mk d = .ok (t', d') ∧ (∀ A, sat A t' = sat A t) ∧ t'.str = t.str := by
  induction h with
  | @leaf c p a i hw hc =>
    intro d
    obtain ⟨p', a', h1, _, h2, _⟩ := check_word hw
    rw [hc] at h1; cases h1
    obtain ⟨j, d', h3⟩ := leafNode_of (d := d) h2
    exact ⟨_, d', h3, fun A => by simp [sat], by simp [TNode.str]⟩
  | @or l r tl tr el er _ _ il ir =>
    intro d
    obtain ⟨t1, d1, a1, a2, a3⟩ := il d
    obtain ⟨t2, d2, b1, b2, b3⟩ := ir d1
    refine ⟨kof2 1 t1 t2, d2, by simp [Expr.eval, a1, b1], fun A => ?_, ?_⟩
    · rw [sat_kof2_one, sat_kof2_one, a2, b2]
    · simp [kof2, TNode.str, strL, a3, b3]
  | @and l r tl tr el er _ _ il ir =>
    intro d
    obtain ⟨t1, d1, a1, a2, a3⟩ := il d
    obtain ⟨t2, d2, b1, b2, b3⟩ := ir d1
    refine ⟨kof2 2 t1 t2, d2, by simp [Expr.eval, a1, b1], fun A => ?_, ?_⟩
    · rw [sat_kof2_two, sat_kof2_two, a2, b2]
    · simp [kof2, TNode.str, strL, a3, b3]

theorem prints_built {d d' : Drv} {t : TNode} {cs : List Bytes} (h : Built d t d' cs) : (∀ c ∈ cs, Wordy c) →
    ∃ ts e, Prints t ts e ∧ ∀ u, u ∈ e.plain ↔ ∃ c ∈ cs, u = lab c := by
  have gate : ∀ {l r : TNode} {cs1 cs2 : List Bytes} {k : Nat}, (k = 1 ∨ k = 2) →
      (∃ ts e, Prints l ts e ∧ ∀ u, u ∈ e.plain ↔ ∃ c ∈ cs1, u = lab c) →
      (∃ ts e, Prints r ts e ∧ ∀ u, u ∈ e.plain ↔ ∃ c ∈ cs2, u = lab c) →
      ∃ ts e, Prints (kof2 k l r) ts e ∧ ∀ u, u ∈ e.plain ↔ ∃ c ∈ cs1 ++ cs2, u = lab c := by
    rintro l r cs1 cs2 k hk ⟨tl, el, h1, h2⟩ ⟨tr, er, h3, h4⟩
    have fin : ∀ u, u ∈ el.plain ++ er.plain ↔ ∃ c ∈ cs1 ++ cs2, u = lab c := by
      intro u
      rw [List.mem_append, h2, h4]
      simp only [List.mem_append]
      constructor
      · rintro (⟨c, h, e⟩ | ⟨c, h, e⟩)
        · exact ⟨c, Or.inl h, e⟩
        · exact ⟨c, Or.inr h, e⟩
      · rintro ⟨c, h | h, e⟩
        · exact Or.inl ⟨c, h, e⟩
        · exact Or.inr ⟨c, h, e⟩
    rcases hk with rfl | rfl
    · exact ⟨_, _, .or h1 h3, fin⟩
    · exact ⟨_, _, .and h1 h3, fin⟩
  induction h with
  | @leaf d c t d' h =>
    intro hw
    obtain ⟨p, a, i, h1, rfl⟩ := leafNode_leaf h
    exact ⟨_, _, .leaf (hw c (by simp)) h1, by simp [Expr.plain, lab, h1]⟩
  | gate _ _ hk il ir =>
    intro hw
    exact gate hk (il fun c hc => hw c (by simp [hc])) (ir fun c hc => hw c (by simp [hc]))
  | @gateR d r d1 l d2 cs1 cs2 k _ _ hk ir il =>
    intro hw
    obtain ⟨ts, e, h1, h2⟩ := gate hk (il fun c hc => hw c (by simp [hc])) (ir fun c hc => hw c (by simp [hc]))
    refine ⟨ts, e, h1, fun u => ?_⟩
    rw [h2]
    simp only [List.mem_append, or_comm]

/-! ### The tree of an accepted text -/

theorem built_ne {d d' : Drv} {t : TNode} {cs : List Bytes} (h : Built d t d' cs) : cs ≠ [] := by
  induction h with
  | leaf _ => simp
  | gate _ _ _ il _ => simp [il]
  | gateR _ _ _ il _ => simp [il]

theorem eval_cover : ∀ (e : Expr) (d d' : Drv) (t : TNode), e.valid = true → e.eval mk d = .ok (t, d') →
    ∃ cs, Built d t d' cs ∧ (∀ c ∈ cs, e.Text c) ∧ (∀ c ∈ e.plain, c ∈ cs) ∧ (e.conds ≠ [] → ∃ c ∈ cs, b!"expint" <:+: c)
  | .leaf s, d, d', t, _, h => ⟨[s], Built.leaf h, by simp [Expr.Text, Expr.plain], by simp [Expr.plain], by simp [Expr.conds]⟩
  | .cond c, d, d', t, hv, h => by
    obtain ⟨cs, hb, hm⟩ := compile_built_any (CondSyn.widths hv) h
    refine ⟨cs, hb, fun x hx => Or.inr ⟨c, by simp [Expr.conds], hm x hx⟩, by simp [Expr.plain], fun _ => ?_⟩
    obtain ⟨x, hx⟩ := List.exists_mem_of_ne_nil _ (built_ne hb)
    obtain ⟨w, i, b, _, _, he⟩ := hm x hx
    exact ⟨x, hx, he ▸ marker_expint _ _ _ _⟩
  | .paren e, d, d', t, hv, h => eval_cover e d d' t hv h
  | .or l r, d, d', t, hv, h => by
    simp only [Expr.valid, Bool.and_eq_true] at hv
    simp only [Expr.eval] at h
    obtain ⟨x, hx, h⟩ := (Res.bind_eq_ok _ _ _).mp h
    obtain ⟨y, hy, h⟩ := (Res.bind_eq_ok _ _ _).mp h
    cases h
    obtain ⟨cs1, hb1, hm1, hp1, hc1⟩ := eval_cover l _ _ _ hv.1 hx
    obtain ⟨cs2, hb2, hm2, hp2, hc2⟩ := eval_cover r _ _ _ hv.2 hy
    exact ⟨cs1 ++ cs2, Built.gate hb1 hb2 (Or.inl rfl), both hm1 hm2, cover hp1 hp2, seen hc1 hc2⟩
  | .and l r, d, d', t, hv, h => by
    simp only [Expr.valid, Bool.and_eq_true] at hv
    simp only [Expr.eval] at h
    obtain ⟨x, hx, h⟩ := (Res.bind_eq_ok _ _ _).mp h
    obtain ⟨y, hy, h⟩ := (Res.bind_eq_ok _ _ _).mp h
    cases h
    obtain ⟨cs1, hb1, hm1, hp1, hc1⟩ := eval_cover l _ _ _ hv.1 hx
    obtain ⟨cs2, hb2, hm2, hp2, hc2⟩ := eval_cover r _ _ _ hv.2 hy
    exact ⟨cs1 ++ cs2, Built.gate hb1 hb2 (Or.inr rfl), both hm1 hm2, cover hp1 hp2, seen hc1 hc2⟩
where
  both {l r : Expr} {cs1 cs2 : List Bytes} (hm1 : ∀ c ∈ cs1, l.Text c) (hm2 : ∀ c ∈ cs2, r.Text c) :
      ∀ c ∈ cs1 ++ cs2, c ∈ l.plain ++ r.plain ∨ ∃ s ∈ l.conds ++ r.conds, ∃ w i b, Width w ∧ i < 32 ∧ c = s.base ++ msuf w i b := by
    intro c hc
    rcases List.mem_append.mp hc with hc | hc
    · rcases hm1 c hc with h | ⟨s, hs, h⟩
      · exact Or.inl (by simp [h])
      · exact Or.inr ⟨s, by simp [hs], h⟩
    · rcases hm2 c hc with h | ⟨s, hs, h⟩
      · exact Or.inl (by simp [h])
      · exact Or.inr ⟨s, by simp [hs], h⟩
  cover {l r : Expr} {cs1 cs2 : List Bytes} (h1 : ∀ c ∈ l.plain, c ∈ cs1) (h2 : ∀ c ∈ r.plain, c ∈ cs2) :
      ∀ c ∈ l.plain ++ r.plain, c ∈ cs1 ++ cs2 := by
    intro c hc
    rcases List.mem_append.mp hc with hc | hc
    · exact List.mem_append_left _ (h1 c hc)
    · exact List.mem_append_right _ (h2 c hc)
  seen {l r : Expr} {cs1 cs2 : List Bytes} (h1 : l.conds ≠ [] → ∃ c ∈ cs1, b!"expint" <:+: c)
      (h2 : r.conds ≠ [] → ∃ c ∈ cs2, b!"expint" <:+: c) : l.conds ++ r.conds ≠ [] → ∃ c ∈ cs1 ++ cs2, b!"expint" <:+: c := by
    intro h
    by_cases hl : l.conds = []
    · obtain ⟨c, hc, he⟩ := h2 (by simpa [hl] using h)
      exact ⟨c, List.mem_append_right _ hc, he⟩
    · obtain ⟨c, hc, he⟩ := h1 hl
      exact ⟨c, List.mem_append_left _ hc, he⟩

theorem base_wordy {c : CondSyn} (ht : ∀ t ∈ c.toks, TokOk t) : Wordy c.base := by
  have hd : ∀ s, isName s = true → Wordy (dateAttr s) := by
    intro s hs
    obtain ⟨b, w, rfl, h1, h2⟩ := name_wordy hs
    unfold dateAttr
    split
    · exact ⟨b, w ++ b!":" ++ b!"time", by simp, h1, by rw [List.all_append, List.all_append, h2]; decide⟩
    · exact ⟨b, w, rfl, h1, h2⟩
  cases c with
  | cmp op s n => exact name_wordy (ht (.leaf s) (by simp [CondSyn.toks]))
  | rangeO s lo hi => exact name_wordy (ht (.leaf s) (by simp [CondSyn.toks]))
  | rangeC s lo hi => exact name_wordy (ht (.leaf s) (by simp [CondSyn.toks]))
  | date op s m d y => exact hd s (ht (.leaf s) (by simp [CondSyn.toks]))
  | dateRange s m d1 d2 y => exact hd s (ht (.leaf s) (by simp [CondSyn.toks]))

theorem marker_wordy {c : Bytes} (h : Wordy c) {w i : Nat} (hw : Width w) (hi : i < 32) (v : Bool) : Wordy (c ++ msuf w i v) := by
  obtain ⟨b, x, rfl, h1, h2⟩ := h
  refine ⟨b, x ++ msuf w i v, by simp, h1, ?_⟩
  rw [List.all_append, h2, msuf_word w (by rcases hw with h | h | h | h <;> simp [h]) i hi v]
  rfl

/-- Tokens that no expression contains. -/
def foreign : Tok → Bool
  | .error | .startPolicy | .startAttr => false
  | _ => true

theorem own_num (n : NumSyn) : n.toks.all foreign = true := by
  cases n <;> simp [NumSyn.toks, foreign]

theorem own_op (op : CmpOp) : foreign op.tok = true ∧ foreign op.dateTok = true := by
  cases op <;> exact ⟨rfl, rfl⟩

theorem own_cond (c : CondSyn) : c.toks.all foreign = true := by
  cases c <;> simp only [CondSyn.toks, List.all_cons, List.all_append, List.all_nil, own_num, own_op, Bool.and_true] <;> rfl

theorem own : ∀ e : Expr, e.toks.all foreign = true
  | .leaf s => rfl
  | .cond c => own_cond c
  | .paren e => by simp only [Expr.toks, List.all_cons, List.all_append, List.all_nil, own e, Bool.and_true, foreign]
  | .or l r => by simp only [Expr.toks, List.all_cons, List.all_append, own l, own r, Bool.and_true, foreign]
  | .and l r => by simp only [Expr.toks, List.all_cons, List.all_append, own l, own r, Bool.and_true, foreign]

theorem foreign_null {t : TNode} {ts : List Tok} {e : Expr} (h : Prints t ts e) {x : Tok} (hx : x ∈ ts) (hf : foreign x = false) :
    createPolicyTree mk t.str = .ok none := by
  have hl := prints_lex h
  refine C14_malformed_gives_null _ ?_ ?_
  · rintro ⟨e', _, he⟩
    rw [hl, effective_self fun y hy => (prints_shape h y hy).2] at he
    have := List.all_eq_true.mp (own e') x (he ▸ hx)
    rw [hf] at this; cases this
  · rintro c _ hi ⟨hc, _⟩
    rw [hl] at hi
    exact (prints_shape h _ (hi.subset hc)).1 rfl

theorem accepted_with {s : Bytes} {p : Policy} {e : Expr} (hv : e.valid = true) (hc : e.canon = true)
    (he : effective (lex s) = e.toks) (h : createPolicyTree mk s = .ok (some p)) :
    ∃ t d', e.eval mk { input := s } = .ok (t, d') ∧ p = builtPolicy d' t := by
  unfold createPolicyTree at h
  split at h
  · cases h
  · rw [parseString_policy hc hv s he] at h
    cases hev : e.eval mk { input := s } with
    | ok x =>
      rw [hev] at h
      simp only [Res.bind, Res.ok.injEq] at h
      exact ⟨x.1, x.2, rfl, (Option.some.inj h).symm⟩
    | throw er => rw [hev] at h; cases h
    | ub => rw [hev] at h; cases h
    | abort => rw [hev] at h; cases h

theorem printed {s : Bytes} {p : Policy} {t : TNode} {e : Expr} (hv : e.valid = true) (hc : e.canon = true)
    (he : effective (lex s) = e.toks) (h : createPolicyTree mk s = .ok (some p)) (ht : p.root = some t) :
    (e.conds = [] ∧ (∀ a ∈ e.plain, ¬ Bracketed a) ∧ ∃ p' t', createPolicyTree mk t.str = .ok (some p') ∧ p'.root = some t' ∧
      (∀ A, sat A t' = sat A t) ∧ t'.str = t.str) ∨
    (¬ (e.conds = [] ∧ ∀ a ∈ e.plain, ¬ Bracketed a) ∧ createPolicyTree mk t.str = .ok none) := by
  obtain ⟨t', d', hev, rfl⟩ := accepted_with hv hc he h
  cases ht
  have hok := toks_ok_of_text he
  obtain ⟨cs, hb, hm, hp, hcd⟩ := eval_cover e _ _ _ hv hev
  have hplain : ∀ c ∈ e.plain, isName c = true := fun c hc => hok (.leaf c) (e.plain_toks c hc)
  have hw : ∀ c ∈ cs, Wordy c := by
    intro c hc
    rcases hm c hc with h | ⟨s, hs, w, i, b, h1, h2, rfl⟩
    · exact name_wordy (hplain c h)
    · exact marker_wordy (base_wordy fun t ht => hok t (e.conds_toks s hs t ht)) h1 h2 b
  obtain ⟨ts, e', hpr, hpl⟩ := prints_built hb hw
  by_cases hg : e.conds = [] ∧ ∀ a ∈ e.plain, ¬ Bracketed a
  · left
    have hall : ∀ u ∈ e'.plain, actLeaf u = .leaf u := by
      intro u hu
      obtain ⟨c, hc, rfl⟩ := (hpl u).mp hu
      rcases hm c hc with h | ⟨s, hs, _⟩
      · exact lab_name (hplain c h) (hg.2 c h)
      · rw [hg.1] at hs; cases hs
    obtain ⟨t1, d1, h1, h2, h3⟩ := prints_eval (mk := mk) hpr { input := t.str }
    have hx := prints_expr hpr
    refine ⟨hg.1, hg.2, builtPolicy d1 t1, t1, policy_of_eval hx.2.1 hx.1 ?_ h1, rfl, h2, h3⟩
    rw [prints_lex hpr, effective_self fun y hy => (prints_shape hpr y hy).2, prints_toks hpr hall]
  · right
    refine ⟨hg, ?_⟩
    by_cases hcn : e.conds = []
    · have : ∃ a ∈ e.plain, Bracketed a := by
        by_contra hno
        push Not at hno
        exact hg ⟨hcn, hno⟩
      obtain ⟨a, ha, hbr⟩ := this
      have hin := prints_mem hpr (lab a) ((hpl _).mpr ⟨a, hp a ha, rfl⟩)
      rcases lab_bracketed hbr with h | h
      · rw [h] at hin; exact foreign_null hpr hin rfl
      · rw [h] at hin; exact foreign_null hpr hin rfl
    · obtain ⟨c, hc, hex⟩ := hcd hcn
      have hin := prints_mem hpr (lab c) ((hpl _).mpr ⟨c, hc, rfl⟩)
      rw [lab_marker (hw c hc) hex] at hin
      exact foreign_null hpr hin rfl

end Printed

open Printed

/-- **Exactly the policies whose printed text is a policy**: those without a condition on a number or a date, and without an
attribute made of `[0]` or `[1]` and two or more colons. -/
theorem C158_exact (s : Bytes) (p : Policy) (t : TNode) (e : Expr) (hv : e.valid = true) (hc : e.canon = true)
    (he : effective (lex s) = e.toks) (h : createPolicyTree mk s = .ok (some p)) (ht : p.root = some t) :
    (∃ p', createPolicyTree mk t.str = .ok (some p')) ↔ e.conds = [] ∧ ∀ a ∈ e.plain, ¬ Bracketed a := by
  rcases printed hv hc he h ht with ⟨h1, h2, p', t', h3, _⟩ | ⟨h1, h2⟩
  · exact ⟨fun _ => ⟨h1, h2⟩, fun _ => ⟨p', h3⟩⟩
  · refine ⟨?_, fun h => absurd h h1⟩
    rintro ⟨p', h⟩
    rw [h2] at h; cases h

/-- Every other printed text gives the null pointer: never an exception, never undefined behaviour. -/
theorem C158_otherwise (s : Bytes) (p : Policy) (t : TNode) (h : createPolicyTree mk s = .ok (some p)) (ht : p.root = some t) :
    (∃ p', createPolicyTree mk t.str = .ok (some p')) ∨ createPolicyTree mk t.str = .ok none := by
  obtain ⟨e, hv, hc, he⟩ := accepted h
  rcases printed hv hc he h ht with ⟨_, _, p', t', h3, _⟩ | ⟨_, h2⟩
  · exact Or.inl ⟨p', h3⟩
  · exact Or.inr h2

/-- **A printed text that is read is read as the same policy**: satisfied by the same attributes, and printed the same. -/
theorem C158_same (s : Bytes) (p p' : Policy) (t : TNode) (h : createPolicyTree mk s = .ok (some p)) (ht : p.root = some t)
    (h' : createPolicyTree mk t.str = .ok (some p')) :
    ∃ t', p'.root = some t' ∧ (∀ A, sat A t' = sat A t) ∧ t'.str = t.str := by
  obtain ⟨e, hv, hc, he⟩ := accepted h
  rcases printed hv hc he h ht with ⟨_, _, q, t', h3, h4, h5, h6⟩ | ⟨_, h2⟩
  · rw [h'] at h3; cases h3
    exact ⟨t', h4, h5, h6⟩
  · rw [h'] at h2; cases h2

/-- So printing and reading once more changes nothing, however often it is repeated. -/
theorem C158_stable (s : Bytes) (p p' : Policy) (t : TNode) (h : createPolicyTree mk s = .ok (some p)) (ht : p.root = some t)
    (h' : createPolicyTree mk t.str = .ok (some p')) :
    ∃ t', p'.root = some t' ∧ createPolicyTree mk t'.str = .ok (some p') := by
  obtain ⟨t', h1, _, h3⟩ := C158_same s p p' t h ht h'
  exact ⟨t', h1, by rw [h3]; exact h'⟩

/-- Both kinds of policy occur. -/
example : (Expr.leaf b!"a::b").conds = [] ∧ ¬ Bracketed b!"a::b" ∧ Bracketed b!"[1]:::" := by
  refine ⟨rfl, ?_, 1, Or.inr rfl⟩
  rintro ⟨n, h | h⟩ <;> simp at h

example : ∃ p t, createPolicyTree mk b!"a::b or c" = .ok (some p) ∧ p.root = some t ∧ t.str = b!"(a:b or c)" :=
  ⟨_, _, policy_of_eval (e := .or (.leaf b!"a::b") (.leaf b!"c")) rfl rfl (by decide +kernel) rfl, rfl, by decide +kernel⟩

end Abe
