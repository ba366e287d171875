import Verif.Proof.SyntaxReports
/-!
# Places of tokens and syntax errors (C125, C126)
-/
set_option linter.unusedSimpArgs false
set_option linter.unusedSectionVars false
set_option autoImplicit false
namespace Abe
variable {mk : Mktime}

/-! ### C125 -/

/-- In a text of less than 2^31 - 1 bytes the scanner gives every token the lines and columns it begins and ends at, and the end of the
text its own. -/
theorem C125_places (s : Bytes) (h : s.length < 2147483647) : ∃ ts : List (Tok × Loc), lexL s = .ok (ts, ⟨posAt s, posAt s⟩) ∧
    ts.map Prod.fst = lex s ∧
    ∀ i t l, ts[i]? = some (t, l) → ∃ pre text, TokenAt s i t pre text ∧ l = placeOf pre t text :=
  lexL_spec h

example : ∃ ts : List (Tok × Loc), lexL b!"ab\n  <= cd" = .ok (ts, ⟨⟨2, 8⟩, ⟨2, 8⟩⟩) ∧
    (ts.map Prod.snd).map (fun l : Loc => (l.start.column, l.stop.column)) = [(1, 3), (1, 1), (3, 5), (6, 8)] :=
  ⟨_, rfl, by decide⟩

theorem posAt_tag (b : Bool) (pre : Bytes) : posAt (tagOf b ++ pre) =
    ⟨(posAt pre).line, (posAt pre).column + if (10 : UInt8) ∈ pre then 0 else 5⟩ := by
  have hf : (tagOf b).filter (fun b => decide (b = 10)) = [] := by cases b <;> decide
  have hl : (tagOf b).length = 5 := by cases b <;> rfl
  have hw : ∀ x ∈ (tagOf b).reverse, decide (x ≠ 10) = true := by cases b <;> decide
  unfold posAt
  rw [List.filter_append, hf, List.nil_append, List.reverse_append]
  congr 1
  split
  · rename_i h
    have hne : ∃ x ∈ pre.reverse, ¬ decide (x ≠ 10) = true := ⟨10, by simpa using h, by simp⟩
    have : ∀ l : Bytes, (∃ x ∈ l, ¬ decide (x ≠ 10) = true) → ∀ r : Bytes,
        (l ++ r).takeWhile (fun b => decide (b ≠ 10)) = l.takeWhile (fun b => decide (b ≠ 10)) := by
      intro l
      induction l with
      | nil => simp
      | cons y l ih =>
        rintro ⟨x, hx, hn⟩ r
        simp only [List.cons_append, List.takeWhile_cons]
        split
        · rename_i hy
          rw [ih ⟨x, by rcases List.mem_cons.mp hx with rfl | hx; exact absurd hy hn; exact hx, hn⟩ r]
        · rfl
    rw [this _ hne]
    simp
  · rename_i h
    have hall : ∀ x ∈ pre.reverse, decide (x ≠ 10) = true := by
      intro x hx
      simp only [List.mem_reverse] at hx
      simp only [decide_eq_true_eq]
      intro h10
      exact h (h10 ▸ hx)
    rw [List.takeWhile_append_of_pos hall]
    have h1 : pre.reverse.takeWhile (fun b => decide (b ≠ 10)) = pre.reverse := by
      simpa using List.takeWhile_append_of_pos (l₂ := []) hall
    have h2 : (tagOf b).reverse.takeWhile (fun b => decide (b ≠ 10)) = (tagOf b).reverse := by
      simpa using List.takeWhile_append_of_pos (l₂ := []) hw
    rw [h1, h2]
    simp [hl]
    omega

/-- The driver puts a tag in front of what the user wrote. The places of the tokens of the user's text are shifted by its five columns on
the first line, and right on all others. -/
theorem C125_behind_tag (b : Bool) (s : Bytes) (h : s.length + 5 < 2147483647) : ∃ (ts : List (Tok × Loc)) (l0 lend : Loc) (t0 : Tok),
    lexL (tagOf b ++ s) = .ok ((t0, l0) :: ts, lend) ∧ ts.map Prod.fst = lex s ∧
    ∀ i t l, ts[i]? = some (t, l) → t ≠ .eol → ∃ pre text, TokenAt s i t pre text ∧
      l.start = ⟨(posAt pre).line, (posAt pre).column + if (10 : UInt8) ∈ pre then 0 else 5⟩ ∧
      l.stop = ⟨(posAt (pre ++ text)).line, (posAt (pre ++ text)).column + if (10 : UInt8) ∈ pre ++ text then 0 else 5⟩ := by
  obtain ⟨ts, l0, e1, e2, e3⟩ := lexL_tag (b := b) h
  refine ⟨ts, l0, _, _, e1, e2, ?_⟩
  intro i t l hi hne
  obtain ⟨pre, text, h1, h2⟩ := e3 i t l hi
  refine ⟨pre, text, h1, ?_⟩
  rw [h2]
  unfold placeOf
  rw [if_neg hne, List.append_assoc]
  exact ⟨posAt_tag b pre, posAt_tag b (pre ++ text)⟩

example : ∃ ts l0 lend, lexL (tagOf true ++ b!"a b\nc") = .ok ((.startPolicy, l0) :: ts, lend) ∧
    ts.map (fun x : Tok × Loc => (x.2.start.line, x.2.start.column)) = [(1, 6), (1, 8), (2, 1), (2, 1)] :=
  ⟨_, _, _, rfl, by decide⟩

/-- The code violates C125 in two ways. Columns of the first line are five too large, because the tag is scanned with the text: here the
second token of `a b` is said to begin in column 8. And a newline token is said to be on the line that it begins, in front of that
line's first character: here in line 2, where there is nothing. -/
theorem C125_places_violated : (∃ ts l0 lend, lexL (tagOf true ++ b!"a b") = .ok ((.startPolicy, l0) :: ts, lend) ∧
      ts[1]? = some (.leaf b!"b", ⟨⟨1, 8⟩, ⟨1, 9⟩⟩)) ∧
    ∃ ts, lexL b!"a\n" = .ok (ts, ⟨⟨2, 1⟩, ⟨2, 1⟩⟩) ∧ ts[1]? = some (.eol, ⟨⟨2, 1⟩, ⟨2, 1⟩⟩) :=
  ⟨⟨_, _, _, rfl, by decide⟩, _, rfl, by decide⟩

/-- The code violates C125 for long texts: a name of 2^31 - 1 letters makes the column counter, an `int`, overflow. -/
theorem C125_overflow_violated : lexL (List.replicate 2147483647 97) = .ub := by
  have key : ∀ n : Nat, 2147483647 = n + 1 → lexL (List.replicate (n + 1) 97) = .ub := by
    intro n hn
    have hm := yyMatch_first 97 (List.replicate n 97)
    simp only at hm
    have hw : (List.replicate n (97 : UInt8)).takeWhile isWord = List.replicate n 97 := by
      have := List.takeWhile_append_of_pos (p := isWord) (l₁ := List.replicate n 97) (l₂ := [])
        (by intro a ha; rw [(List.mem_replicate.mp ha).2]; decide)
      simpa using this
    rw [hw, if_neg (by decide), if_neg (by decide), if_pos (by decide), List.length_replicate] at hm
    have hm2 : (yyMatch 1 0 (0, 0) (97 :: List.replicate n 97)).2 = 1 + n := (Prod.mk.inj hm).2
    unfold lexL
    rw [List.length_replicate, List.replicate_succ]
    simp only [yyLexL, hm2]
    have hlen : (((97 : UInt8) :: List.replicate n 97).take (1 + n)).length = n + 1 := by simp; omega
    rw [hlen]
    have : Loc.columns (Loc.step {}) ((n + 1 : Nat) : Int) = .ub := by
      unfold Loc.columns Pos.columns addCounter Loc.step
      rw [if_pos (by right; show (2147483647 : Int) < (1 : Int) + ((n + 1 : Nat) : Int); omega)]
      rfl
    rw [this]
    rfl
  exact key 2147483646 rfl

/-! ### C126 -/

/-- No other text with the same first tokens is parsed, if its next token is of the same kind. -/
theorem never_parsed {b : Bool} {s : Bytes} {mk' : Mktime} (h : NeverAccepts mk' ⟨[(0, .none)], { input := s, isPolicy := b }, startTok b :: lex s⟩) :
    ∀ d, parseString mk' b s ≠ .ok (true, d) := by
  intro d hd
  unfold parseString at hd
  have htag : (if b = true then b!"[0]: " else b!"[1]: ") = tagOf b := by cases b <;> rfl
  simp only [htag, lex_tag] at hd
  exact h _ _ hd

/-- For every text of less than 2^31 - 6 bytes: the parser reports an error, if at all, exactly once, and then it has rejected the text.
The tokens before the reported one begin some policy (or attribute list); no policy (or list) begins with them and the reported token,
and if the end is reported they are not complete. The place is that of the reported token, or of the end of the text. Something is
always expected, and everything that is said to be expected really can follow. The scanner's own message, for a number out of range, is
about the same place. -/
theorem C126_report (b : Bool) (s : Bytes) (h : s.length + 5 < 2147483647) (R : Report) (res : Res (Bool × Drv)) (said : List Loc)
    (hr : parseLoc mk b s = .ok (res, said, some R)) :
    res = parseString mk b s ∧ (∃ d, res = .ok (false, d)) ∧
    ∃ T1 rest, lex s = T1 ++ rest ∧ Viable b T1 ∧ R.unexpected = some (la rest) ∧
      (∀ t r, rest = t :: r → t.sym ≠ 0 → ¬ Viable b (T1 ++ [t])) ∧ (la rest = 0 → ¬ Complete b T1) ∧
      ((∃ pre t text r, rest = t :: r ∧ TokenAt s T1.length t pre text ∧ R.loc = placeOf (tagOf b ++ pre) t text) ∨
        (rest = [] ∧ R.loc = ⟨posAt (tagOf b ++ s), posAt (tagOf b ++ s)⟩)) ∧
      (said = if rest.head? = some .error then [R.loc] else []) ∧
      R.expected ≠ [] ∧ (∀ x ∈ R.expected, if x = 0 then Complete b T1 else ∃ t, t.sym = x ∧ Viable b (T1 ++ [t])) ∧
      ∀ (mk' : Mktime) (s' : Bytes) (rest' : List Tok), lex s' = T1 ++ rest' → la rest' = la rest →
        ∀ d, parseString mk' b s' ≠ .ok (true, d) := by
  obtain ⟨said', rep, e1, _, _, _, e5⟩ := parseLoc_spec (mk := mk) (b := b) h
  rw [hr] at e1
  injection e1 with e1
  simp only [Prod.mk.injEq] at e1
  obtain ⟨rfl, rfl, rfl⟩ := e1
  obtain ⟨hd, T1, rest, t1, t2, t3, t4, t5, t6, t7, t8⟩ := e5 R rfl
  have hT1 : ∀ t ∈ T1, TokOk t := fun t ht => tokOk_of_lex (s := s) (by rw [t1]; simp [ht])
  have neg : ∀ rest' : List Tok, la rest' = la rest → Complete b (T1 ++ rest') → (∀ t ∈ rest', TokOk t) → False := by
    intro rest' hla hc ht
    obtain ⟨n, d', hrun⟩ := accepts_complete hc
      (by intro t hm; rcases List.mem_append.mp hm with hm | hm; exact hT1 t hm; exact ht t hm)
      { isPolicy := b } rfl rfl rfl rfl (r := []) rfl (by simp)
    rw [List.append_nil] at hrun
    exact t6 mkDay { isPolicy := b } rest' hla n d' hrun
  refine ⟨rfl, hd, T1, rest, t1, t2, t3, ?_, ?_, t4, t5, t7, t8, ?_⟩
  · intro t r hrest _ hv
    unfold Viable at hv
    cases b with
    | true =>
      rw [if_pos rfl] at hv
      obtain ⟨e, v1, v2, x, v3⟩ := hv
      rw [List.append_assoc] at v3
      refine neg ([t] ++ x) (by rw [hrest]; rfl) ?_ ?_
      · unfold Complete; rw [if_pos rfl]; exact ⟨e, v1, v3⟩
      · intro u hu; exact v2 u (by rw [← v3]; exact List.mem_append_right _ hu)
    | false =>
      rw [if_neg (by simp)] at hv
      obtain ⟨a, v1, v1', v2, x, v3⟩ := hv
      rw [List.append_assoc] at v3
      refine neg ([t] ++ x) (by rw [hrest]; rfl) ?_ ?_
      · unfold Complete; rw [if_neg (by simp)]; exact ⟨a, v1, v1', v3⟩
      · intro u hu; exact v2 u (by rw [← v3]; exact List.mem_append_right _ hu)
  · intro h0 hc
    exact neg [] (by rw [h0]; rfl) (by rw [List.append_nil]; exact hc) (by simp)
  · intro mk' s' rest' hs' hla
    refine never_parsed ?_
    rw [hs']
    exact t6 mk' _ rest' hla

example : ∃ d, parseLoc mk true b!"(a b" = .ok (.ok (false, d), [], some ⟨⟨⟨1, 9⟩, ⟨1, 10⟩⟩, some 4, [9, 10, 24]⟩) := ⟨_, rfl⟩

example : ∃ d, parseLoc mk true b!"a and 0" = .ok (.ok (false, d), [⟨⟨1, 12⟩, ⟨1, 13⟩⟩], some ⟨⟨⟨1, 12⟩, ⟨1, 13⟩⟩, some 16, [4, 23]⟩) :=
  ⟨_, rfl⟩

example : ∃ d, parseLoc mk false b!"a||" = .ok (.ok (false, d), [], some ⟨⟨⟨1, 9⟩, ⟨1, 9⟩⟩, some 0, [4, 30]⟩) := ⟨_, rfl⟩

/-- Parsing with places is parsing, and every text of less than 2^31 - 6 bytes that is accepted is accepted without any message. -/
theorem C126_accepted (b : Bool) (s : Bytes) (h : s.length + 5 < 2147483647) : ∃ said rep,
    parseLoc mk b s = .ok (parseString mk b s, said, rep) ∧ said.length ≤ 1 ∧
    ∀ d, parseString mk b s = .ok (true, d) → said = [] ∧ rep = none := by
  obtain ⟨said, rep, e1, e2, e3, _⟩ := parseLoc_spec (mk := mk) (b := b) h
  exact ⟨said, rep, e1, e2, e3⟩

/-- A rejected text is reported, unless it contains a number that does not fit the width written behind it. -/
theorem C126_rejected_partial (b : Bool) (s : Bytes) (h : s.length + 5 < 2147483647) (d : Drv) (hd : parseString mk b s = .ok (false, d)) :
    (∃ said R, parseLoc mk b s = .ok (.ok (false, d), said, some R)) ∨
    ∃ n w, [.uint n, .chr 35, .uint w] <:+: lex s ∧ checkValidBit n w = false := by
  obtain ⟨said, rep, e1, e2, e3, e4, _⟩ := parseLoc_spec (mk := mk) (b := b) h
  cases rep with
  | none => exact Or.inr (e4 d hd rfl)
  | some R => exact Or.inl ⟨said, R, by rw [e1, hd]⟩

/-- The code violates C126: the grammar's action for a number that does not fit its width gives up without a word. -/
theorem C126_silent_violated : ∃ d, parseString mk true b!"a <= 5#7" = .ok (false, d) ∧
    parseLoc mk true b!"a <= 5#7" = .ok (.ok (false, d), [], none) := ⟨_, rfl, rfl⟩

example : ∃ d, parseString mk true b!"a b" = .ok (false, d) ∧
    parseLoc mk true b!"a b" = .ok (.ok (false, d), [], some ⟨⟨⟨1, 8⟩, ⟨1, 9⟩⟩, some 4, [0]⟩) := ⟨_, rfl, rfl⟩

/-- The code violates C126: what is said to be expected is not all that could follow. Reductions without looking at the next token have
been made before the error is found. For `(a b` the message names `or`, `and` and `)`, but `<` could follow `(a` as well. -/
theorem C126_expected_violated : (∃ d, parseLoc mk true b!"(a b" = .ok (.ok (false, d), [], some ⟨⟨⟨1, 9⟩, ⟨1, 10⟩⟩, some 4, [9, 10, 24]⟩)) ∧
    lex b!"(a b" = [.chr 40, .leaf b!"a"] ++ [.leaf b!"b"] ∧ Viable true ([.chr 40, .leaf b!"a"] ++ [.chr 60]) ∧ (Tok.chr 60).sym = 21 := by
  refine ⟨⟨_, rfl⟩, by decide, ?_, rfl⟩
  unfold Viable
  rw [if_pos rfl]
  refine ⟨.paren (.cond (.cmp .lt b!"a" (.flex 1))), by decide, ?_, ⟨[.uint 1, .chr 41], rfl⟩⟩
  intro t ht
  simp only [Expr.toks, CondSyn.toks, CmpOp.tok, NumSyn.toks, List.cons_append, List.nil_append, List.mem_cons, List.not_mem_nil,
    or_false] at ht
  rcases ht with rfl | rfl | rfl | rfl | rfl
  · trivial
  · show isName b!"a" = true; decide
  · trivial
  · show 1 ≤ (1 : UInt32).toNat ∧ (1 : UInt32).toNat < 2 ^ 32 - 1; decide
  · trivial

end Abe
