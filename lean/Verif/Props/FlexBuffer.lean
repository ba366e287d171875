import Verif.Proof.FlexBuffer
/-!
# Reading the text through the scanner's buffer (C116)

`yylex` works on a buffer of fixed size that it moves, grows and refills. Calling it again and again gives the tokens of the
whole text, as long as no piece of the text has 2^30 - 1 bytes.
-/
set_option linter.unusedSimpArgs false
set_option linter.unusedSectionVars false
set_option autoImplicit false
namespace Abe
namespace LexBuf

/-- The pieces into which longest matches cut the text: tokens and runs of white space. -/
def pieces : Nat → Bytes → List Bytes
  | 0, _ => []
  | _, [] => []
  | fuel + 1, b :: s =>
    (b :: s).take (yyMatch 1 0 (0, 0) (b :: s)).2 :: pieces fuel ((b :: s).drop (yyMatch 1 0 (0, 0) (b :: s)).2)

/-- The pieces of a text. -/
def piecesOf (s : Bytes) : List Bytes := pieces s.length s

theorem longest_pos (b : UInt8) (r : Bytes) : 0 < (longest 1 (b :: r)).2 := by
  rw [longest, if_neg (begun_ne (del_start b)).1]; exact Nat.succ_pos _

theorem pieces_nil : ∀ fuel, pieces fuel [] = []
  | 0 => rfl
  | _ + 1 => rfl

theorem yyLex_nil : ∀ fuel, yyLex fuel [] = []
  | 0 => rfl
  | _ + 1 => rfl

theorem pieces_flatten : ∀ (fuel : Nat) (s : Bytes), s.length ≤ fuel → (pieces fuel s).flatten = s := by
  intro fuel
  induction fuel with
  | zero => intro s h; rw [List.length_eq_zero_iff.mp (Nat.le_zero.mp h)]; rfl
  | succ fuel ih =>
    intro s h
    cases s with
    | nil => rfl
    | cons b s =>
      have hp := longest_pos b s
      simp only [pieces, yyMatch_start]
      simp only [List.flatten_cons]
      rw [ih _ (by rw [List.length_drop]; omega), List.take_append_drop]

/-- A call that finds only short pieces. -/
theorem call_ok {z : Sizes} {P : Nat → Prop} (hz : 0 < z.read) (hP : Doubling P) : ∀ (fuel : Nat) {f : Lexer} {u : Bytes},
    Between P f u → (u ++ f.input).length ≤ fuel →
    (∀ p ∈ pieces fuel (u ++ f.input), p.length + 1 < 1073741824) →
    ∃ f' u' fuel', Yields z f (yyLex fuel (u ++ f.input)).head? f' ∧ Between P f' u' ∧
      (u' ++ f'.input).length ≤ fuel' ∧ yyLex fuel' (u' ++ f'.input) = (yyLex fuel (u ++ f.input)).tail ∧
      (∀ p ∈ pieces fuel' (u' ++ f'.input), p.length + 1 < 1073741824) := by
  intro fuel
  induction fuel with
  | zero =>
    intro f u h hl hs
    have hn : u ++ f.input = [] := List.length_eq_zero_iff.mp (by omega)
    rcases loop_run (z := z) hz hP h with ⟨-, f', hr, he⟩ | ⟨hne, -⟩ | ⟨hL, -⟩
    · refine ⟨f', [], 0, hr, atEnd_between he, by simp [he.input], ?_, ?_⟩
      · rw [he.input]; rfl
      · rw [he.input]; intro p hp; simp [pieces] at hp
    · exact absurd hn hne
    · rw [hn] at hL; simp [longest] at hL
  | succ fuel ih =>
    intro f u h hl hs
    rcases loop_run (z := z) hz hP h with ⟨hn, f', hr, he⟩ | ⟨hne, -, f', u', hB, hrest, hr⟩ | ⟨hL, -⟩
    · refine ⟨f', [], fuel + 1, ?_, atEnd_between he, by simp [he.input], ?_, ?_⟩
      · rw [hn]; exact hr
      · rw [he.input, hn]; rfl
      · rw [he.input]; intro p hp; simp [pieces] at hp
    · obtain ⟨b, r, hbr⟩ := List.exists_cons_of_ne_nil hne
      rw [hbr] at hl hs hrest hr ⊢
      have hp := longest_pos b r
      simp only [pieces, yyMatch_start] at hs
      simp only [yyLex, yyMatch_start]
      have hlen : (u' ++ f'.input).length ≤ fuel := by rw [hrest, List.length_drop]; omega
      have hs' : ∀ p ∈ pieces fuel (u' ++ f'.input), p.length + 1 < 1073741824 := by
        rw [hrest]; intro p hp; exact hs p (List.mem_cons_of_mem _ hp)
      cases hact : yyAction (yyAccept.getD (longest 1 (b :: r)).1 0) ((b :: r).take (longest 1 (b :: r)).2) with
      | some t =>
        rw [hact] at hr
        exact ⟨f', u', fuel, hr, hB, hlen, by rw [hrest]; rfl, hs'⟩
      | none =>
        rw [hact] at hr
        obtain ⟨f2, u2, fuel2, hy, hB2, hl2, he2, hs2⟩ := ih hB hlen hs'
        rw [hrest] at hy he2
        exact ⟨f2, u2, fuel2, Reaches.trans hr hy, hB2, hl2, he2, hs2⟩
    · exfalso
      cases hbr : u ++ f.input with
      | nil => rw [hbr] at hL; simp [longest] at hL
      | cons b r =>
        rw [hbr] at hs hL
        simp only [pieces, yyMatch_start] at hs
        have := hs _ List.mem_cons_self
        rw [List.length_take, Nat.min_eq_left (longest_le _ _)] at this
        omega

/-- A scanner of the code, with a long piece ahead: calls go well up to the one that overflows. -/
theorem call_bad {z : Sizes} (hz : 0 < z.read) : ∀ (fuel : Nat) {f : Lexer} {u : Bytes},
    Between Pow2 f u → (u ++ f.input).length ≤ fuel →
    (∃ p ∈ pieces fuel (u ++ f.input), 1073741824 ≤ p.length + 1) →
    ∃ (i : Nat) (fs : Nat → Lexer), fs 0 = f ∧
      (∀ j, j < i → Yields z (fs j) ((yyLex fuel (u ++ f.input))[j]?) (fs (j + 1))) ∧ Fails z (.top, fs i) := by
  intro fuel
  induction fuel with
  | zero => intro f u h hl hs; simp [pieces] at hs
  | succ fuel ih =>
    intro f u h hl hs
    rcases loop_run (z := z) hz pow2_doubling h with ⟨hn, f', hr, he⟩ | ⟨hne, hL, f', u', hB, hrest, hr⟩ | ⟨hL, hf⟩
    · rw [hn] at hs; simp [pieces] at hs
    · have hL := hL (fun _ h => h)
      obtain ⟨b, r, hbr⟩ := List.exists_cons_of_ne_nil hne
      rw [hbr] at hl hs hrest hr hL ⊢
      have hp := longest_pos b r
      simp only [pieces, yyMatch_start] at hs
      simp only [yyLex, yyMatch_start]
      have hlen : (u' ++ f'.input).length ≤ fuel := by rw [hrest, List.length_drop]; omega
      have hs' : ∃ p ∈ pieces fuel (u' ++ f'.input), 1073741824 ≤ p.length + 1 := by
        obtain ⟨p, hp, hpl⟩ := hs
        rcases List.mem_cons.mp hp with rfl | hp
        · rw [List.length_take, Nat.min_eq_left (longest_le _ _)] at hpl
          omega
        · exact ⟨p, by rw [hrest]; exact hp, hpl⟩
      obtain ⟨i, fs, h0, hy, hF⟩ := ih hB hlen hs'
      rw [hrest] at hy
      cases hact : yyAction (yyAccept.getD (longest 1 (b :: r)).1 0) ((b :: r).take (longest 1 (b :: r)).2) with
      | some t =>
        rw [hact] at hr
        refine ⟨i + 1, fun n => match n with | 0 => f | n + 1 => fs n, rfl, ?_, hF⟩
        intro j hj
        cases j with
        | zero => simp only [h0]; exact hr
        | succ j => exact hy j (by omega)
      | none =>
        rw [hact] at hr
        cases i with
        | zero => exact ⟨0, fun _ => f, rfl, fun j hj => by omega, Reaches.fails hr (by rw [← h0]; exact hF)⟩
        | succ i =>
          refine ⟨i + 1, fun n => match n with | 0 => f | n + 1 => fs (n + 1), rfl, ?_, hF⟩
          intro j hj
          cases j with
          | zero =>
            have := hy 0 (by omega)
            rw [h0] at this
            exact Reaches.trans hr this
          | succ j => exact hy (j + 1) hj
    · exact ⟨0, fun _ => f, rfl, fun j hj => by omega, hf fun _ h => h⟩

theorem steps_ret {z : Sizes} {t : Option Tok} {f : Lexer} : ∀ n, steps z n (.ret t, f) = .ok (.ret t, f)
  | 0 => rfl
  | n + 1 => by simp only [steps, step, Res.ok_bind]; exact steps_ret n

theorem yields_unique {z : Sizes} {f f1 f2 : Lexer} {t1 t2 : Option Tok} (h1 : Yields z f t1 f1) (h2 : Yields z f t2 f2) :
    t1 = t2 ∧ f1 = f2 := by
  obtain ⟨n, hn⟩ := h1
  obtain ⟨m, hm⟩ := h2
  have e1 : steps z (n + m) (.top, f) = .ok (.ret t1, f1) := by rw [steps_add hn, steps_ret]
  have e2 : steps z (n + m) (.top, f) = .ok (.ret t2, f2) := by rw [Nat.add_comm, steps_add hm, steps_ret]
  rw [e1] at e2
  simpa using e2

theorem longest_word : ∀ n, longest 11 (List.replicate n 97) = (11, n)
  | 0 => rfl
  | n + 1 => by
    rw [List.replicate_succ, longest, if_neg (by decide), show del 11 97 = 11 by decide, longest_word n]

theorem word_piece (n : Nat) : List.replicate (n + 2) 97 ∈ piecesOf (List.replicate (n + 2) 97) := by
  have e : longest 1 (97 :: List.replicate (n + 1) 97) = (11, n + 2) := by
    rw [longest, if_neg (by decide), show del 1 97 = 7 by decide, List.replicate_succ, longest, if_neg (by decide),
      show del 7 97 = 11 by decide, longest_word]
  unfold piecesOf
  rw [List.length_replicate, List.replicate_succ, pieces, yyMatch_start, e]
  apply List.mem_cons.mpr
  left
  rw [List.take_of_length_le (by simp)]

end LexBuf

open LexBuf

/-- Calling `yylex` again and again on a fresh scanner returns the tokens of the whole text one by one and then the end of
the file for ever, without undefined behaviour: for every text whose pieces have fewer than 2^30 - 1 bytes, and for
all sizes of the buffer and of a read. -/
theorem C116_buffering_transparent_partial (z : Sizes) (hb : 0 < z.buf) (hr : 0 < z.read) (s : Bytes)
    (hs : ∀ p ∈ piecesOf s, p.length + 1 < 1073741824) :
    ∃ fs : Nat → Lexer, create z s = .ok (fs 0) ∧ ∀ i, Yields z (fs i) ((lex s)[i]?) (fs (i + 1)) := by
  obtain ⟨f0, hc, hi, hB⟩ := create_run (P := fun _ => True) (s := s) hb trivial
  let St := { x : Lexer × Bytes × Nat // Between (fun _ => True) x.1 x.2.1 ∧ (x.2.1 ++ x.1.input).length ≤ x.2.2 ∧
    ∀ p ∈ pieces x.2.2 (x.2.1 ++ x.1.input), p.length + 1 < 1073741824 }
  have next : ∀ x : St, ∃ y : St, Yields z x.1.1 (yyLex x.1.2.2 (x.1.2.1 ++ x.1.1.input)).head? y.1.1 ∧
      yyLex y.1.2.2 (y.1.2.1 ++ y.1.1.input) = (yyLex x.1.2.2 (x.1.2.1 ++ x.1.1.input)).tail := by
    intro x
    obtain ⟨f', u', fuel', hy, hB', hl', he', hs'⟩ := call_ok hr (fun _ _ _ => trivial) x.1.2.2 x.2.1 x.2.2.1 x.2.2.2
    exact ⟨⟨(f', u', fuel'), hB', hl', hs'⟩, hy, he'⟩
  choose g hg1 hg2 using next
  let x0 : St := ⟨(f0, [], s.length), hB, by simp [hi], by simpa [hi, piecesOf] using hs⟩
  let xs : Nat → St := fun i => Nat.rec x0 (fun _ x => g x) i
  have key : ∀ i, yyLex (xs i).1.2.2 ((xs i).1.2.1 ++ (xs i).1.1.input) = (lex s).drop i := by
    intro i
    induction i with
    | zero => show yyLex s.length ([] ++ f0.input) = _; rw [hi]; rfl
    | succ i ih =>
      show yyLex (g (xs i)).1.2.2 _ = _
      rw [hg2, ih, List.tail_drop]
  refine ⟨fun i => (xs i).1.1, hc, fun i => ?_⟩
  have := hg1 (xs i)
  rw [key i, List.head?_drop] at this
  exact this

example : (∀ p ∈ piecesOf b!"or_1 or 12", p.length + 1 < 1073741824) ∧
    lex b!"or_1 or 12" = [.leaf b!"or_1", .or, .uint 12] := by
  decide +kernel

/-- A call of `yylex` has at most one result. -/
theorem C116_calls_deterministic (z : Sizes) (f f1 f2 : Lexer) (t1 t2 : Option Tok) (h1 : Yields z f t1 f1)
    (h2 : Yields z f t2 f2) : t1 = t2 ∧ f1 = f2 :=
  yields_unique h1 h2

/-- The sizes of the buffer and of the reads do not matter: two scanners for the same text return the same tokens. -/
theorem C116_sizes_irrelevant_partial (z z' : Sizes) (hb : 0 < z.buf) (hr : 0 < z.read) (hb' : 0 < z'.buf)
    (hr' : 0 < z'.read) (s : Bytes) (hs : ∀ p ∈ piecesOf s, p.length + 1 < 1073741824) (fs fs' : Nat → Lexer)
    (ts ts' : Nat → Option Tok) (h0 : create z s = .ok (fs 0)) (h0' : create z' s = .ok (fs' 0))
    (h : ∀ i, Yields z (fs i) (ts i) (fs (i + 1))) (h' : ∀ i, Yields z' (fs' i) (ts' i) (fs' (i + 1))) : ts = ts' := by
  have one : ∀ (z : Sizes), 0 < z.buf → 0 < z.read → ∀ (fs : Nat → Lexer) (ts : Nat → Option Tok),
      create z s = .ok (fs 0) → (∀ i, Yields z (fs i) (ts i) (fs (i + 1))) → ∀ i, ts i = (lex s)[i]? := by
    intro z hb hr fs ts h0 h
    obtain ⟨gs, hg0, hg⟩ := C116_buffering_transparent_partial z hb hr s hs
    have hfg : ∀ i, fs i = gs i := by
      intro i
      induction i with
      | zero => rw [h0] at hg0; simpa using hg0
      | succ i ih => have := h i; rw [ih] at this; exact (yields_unique this (hg i)).2
    intro i
    have := h i
    rw [hfg i] at this
    exact (yields_unique this (hg i)).1
  funext i
  rw [one z hb hr fs ts h0 h, one z' hb' hr' fs' ts' h0' h']

/-- The pieces make up the whole text. -/
theorem C116_pieces_cover (s : Bytes) : (piecesOf s).flatten = s :=
  pieces_flatten s.length s (Nat.le_refl _)

/-- Every text of fewer than 2^30 - 1 bytes is scanned as a whole, with the sizes that the code uses. -/
theorem C116_short_texts_partial (s : Bytes) (hs : s.length + 1 < 1073741824) :
    ∃ fs : Nat → Lexer, create sizes s = .ok (fs 0) ∧ ∀ i, Yields sizes (fs i) ((lex s)[i]?) (fs (i + 1)) := by
  refine C116_buffering_transparent_partial sizes (by decide) (by decide) s fun p hp => ?_
  have h1 : ∀ (L : List Bytes), p ∈ L → p.length ≤ L.flatten.length := by
    intro L
    induction L with
    | nil => intro h; simp at h
    | cons a L ih =>
      intro h
      rw [List.flatten_cons, List.length_append]
      rcases List.mem_cons.mp h with rfl | h
      · omega
      · have := ih h; omega
  have := h1 _ hp
  rw [C116_pieces_cover] at this
  omega

/-- A text with a piece of 2^30 - 1 bytes or more, say an attribute name of one gibibyte: the calls before it return
their tokens, then doubling the size of the buffer overflows an `int`, which is undefined. -/
theorem C116_long_piece_violated (s : Bytes) (hs : ∃ p ∈ piecesOf s, 1073741824 ≤ p.length + 1) :
    ∃ (i : Nat) (fs : Nat → Lexer), create sizes s = .ok (fs 0) ∧
      (∀ j, j < i → Yields sizes (fs j) ((lex s)[j]?) (fs (j + 1))) ∧ ∃ n, steps sizes n (.top, fs i) = .ub := by
  obtain ⟨f0, hc, hi, hB⟩ := create_run (z := sizes) (P := Pow2) (s := s) (by decide) ⟨14, by decide, rfl⟩
  obtain ⟨i, fs, h0, hy, hF⟩ := call_bad (z := sizes) (by decide) s.length hB (by simp [hi])
    (by rw [List.nil_append, hi]; exact hs)
  refine ⟨i, fs, by rw [h0]; exact hc, fun j hj => ?_, hF⟩
  have := hy j hj
  rw [hi] at this
  exact this

example : ∃ s : Bytes, ∃ p ∈ piecesOf s, 1073741824 ≤ p.length + 1 :=
  ⟨List.replicate (1073741822 + 2) 97, _, word_piece 1073741822, by rw [List.length_replicate]; omega⟩

end Abe
