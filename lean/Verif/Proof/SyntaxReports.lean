import Verif.Proof.SyntaxErrors
/-!
# What syntax errors say
-/
set_option linter.unusedSimpArgs false
set_option linter.unusedSectionVars false
set_option autoImplicit false
namespace Abe

variable {mk : Mktime}

/-! ### Rejection without a report -/

theorem treeAct_some (R : Res (TNode × Drv)) : treeAct R ≠ .ok none := by
  cases R <;> simp [treeAct]

theorem bind_some {α : Type} (R : Res α) (f : α → SVal × Drv) : (R >>= fun x => .ok (some (f x))) ≠ Res.ok none := by
  cases R <;> simp

/-- Only the rule for numbers with a width gives up. -/
theorem act_none {r : Nat} {v : List SVal} {d : Drv} (h : act mk r v d = .ok none) :
    r = 4 ∧ ∃ w x n, v = [.uint w, x, .uint n] ∧ checkValidBit n w = false := by
  unfold act at h
  split at h
  case h_3 =>
    split at h
    · rename_i w x n
      split at h
      · cases h
      · rename_i hc
        exact ⟨rfl, w, x, n, rfl, by simpa using hc⟩
    · cases h
  all_goals exfalso
  all_goals first
    | (unfold actGate at h; split at h <;> cases h)
    | (unfold actCmp at h; split at h <;> first | cases h | exact treeAct_some _ h)
    | (unfold actRange at h; split at h <;> first | cases h | exact treeAct_some _ h)
    | (unfold actDate at h; split at h <;> first | cases h | exact treeAct_some _ h)
    | (split at h <;> first | cases h | exact treeAct_some _ h)
    | (split at h <;> first | cases h | exact bind_some _ _ h)
    | cases h

/-- A rejection that is not reported comes from a number that does not fit its width. -/
theorem silent_width {b : Bool} {T : List Tok} : ∀ (fuel : Nat) (c : LConf) (G : List GEnt), PInv b T G c.p →
    ∀ d said, yyRunL mk fuel c = (.ok (false, d), said, none) →
    ∃ n w, [.uint n, .chr 35, .uint w] <:+: T ∧ checkValidBit n w = false
  | 0, c, G, _, d, said, h => by simp [yyRunL] at h
  | fuel + 1, c, G, hi, d, said, h => by
    have hst := hi.stack
    have hok := hi.ok
    cases G with
    | nil => simp [GOk] at hok
    | cons g r =>
    have hlt := hok.lt
    simp only [List.map_cons] at hst
    simp only [yyRunL, hst] at h
    have hp : (if g.st = 10 ∨ yyPact.getD g.st 0 = -20 then c else c.read).p = c.p := by
      split
      · rfl
      · exact c.read_p
    generalize (if g.st = 10 ∨ yyPact.getD g.st 0 = -20 then c else c.read) = c' at hp h
    have hcp : c'.p = ⟨(g.st, g.val) :: r.map (fun g => (g.st, g.val)), c.p.drv, c.p.toks⟩ := by rw [hp, ← hst]
    cases hstep : yyStep mk c'.p with
    | next p' =>
      simp only [hstep] at h
      have hi1 : ∃ G1, PInv b T G1 p' := by
        rcases step_inv (mk := mk) hi with ⟨c2, G2, h2, hp2, _⟩ | ⟨q, h2, _⟩
        · rw [← hp, hstep] at h2; cases h2; exact ⟨G2, hp2⟩
        · rw [← hp, hstep] at h2; cases h2
      obtain ⟨G1, hi1⟩ := hi1
      exact silent_width fuel _ G1 hi1 d said h
    | stop res =>
      simp only [hstep, Prod.mk.injEq] at h
      obtain ⟨hres, _, hrep⟩ := h
      subst hres
      have h10 : g.st ≠ 10 := by
        intro h10
        rw [hcp] at hstep
        simp [yyStep, h10] at hstep
      have hnf : ¬ (yyFails g.st (la c'.p.toks) = true) := by
        intro hf
        rw [if_pos ⟨h10, hf⟩] at hrep
        cases hrep
      rw [hp, yyFails_iff hlt (la_le _)] at hnf
      rw [hcp] at hstep
      unfold yyStep at hstep
      simp only [h10, if_false] at hstep
      cases hl : yyLook g.st (la c.p.toks) with
      | some n =>
        have := (look_facts hlt (la_le _) hl).1
        rw [hl] at hstep
        simp only at hstep
        rw [if_neg (by omega)] at hstep
        cases hstep
      | none =>
        have hd : (yyDefact.getD g.st 0).toNat ≠ 0 := fun h => hnf ⟨hl, h⟩
        rw [hl] at hstep
        simp only [hd, if_false] at hstep
        generalize hr : (yyDefact.getD g.st 0).toNat = rr at hd hstep
        obtain ⟨hback, hlen, hr2, hr28⟩ := back_facts hlt h10 hr hd
        obtain ⟨P, g0, R, hG, hP, hsegs, hgo, hok0⟩ := back_spec (rhsRev rr) (g :: r) g r rfl hok hback (rhs_ne0 rr hr28)
        have hPl : P.length = (rhsRev rr).length := by rw [← hP]; simp
        have hstk : (g.st, g.val) :: r.map (fun g => (g.st, g.val)) =
            P.map (fun g => (g.st, g.val)) ++ (g0 :: R).map (fun g => (g.st, g.val)) := by
          rw [← List.map_append, ← hG]; rfl
        have htake : (((g.st, g.val) :: r.map (fun g => (g.st, g.val))).take (yyR2.getD rr 0).toNat).map Prod.snd = P.map GEnt.val := by
          rw [hlen, ← hPl, hstk, List.take_append_of_le_length (by simp), List.take_of_length_le (by simp)]
          simp [Function.comp_def]
        unfold yyReduce at hstep
        simp only [htake] at hstep
        cases hA : act mk rr (P.map GEnt.val) c.p.drv with
        | throw e => rw [hA] at hstep; simp at hstep
        | abort => rw [hA] at hstep; simp at hstep
        | ub => rw [hA] at hstep; simp at hstep
        | ok o =>
          cases o with
          | some x =>
            rw [hA] at hstep
            simp only at hstep
            split at hstep <;> simp at hstep
          | none =>
            obtain ⟨h4, w, x, n, hv, hbad⟩ := act_none hA
            subst h4
            simp only [rhsRev, segs_cons, segs_nil] at hsegs
            obtain ⟨a1, _, rfl, s1, a2, _, rfl, s2, a3, _, rfl, s3, rfl⟩ := hsegs
            obtain ⟨w', _, hw, hsw⟩ := s1.inv5
            obtain ⟨n', _, hn, hsn⟩ := s3.inv5
            have hs2 := s2.invFixed (t := .chr 35) rfl
            simp only [List.map_cons, List.map_nil, List.cons.injEq, and_true] at hv
            rw [hw, hn] at hv
            obtain ⟨hv1, _, hv3⟩ := hv
            injection hv1 with hv1
            injection hv3 with hv3
            subst hv1 hv3
            refine ⟨n', w', ?_, hbad⟩
            rw [← hi.toks, hG]
            refine ⟨segsOf (g0 :: R), c.p.toks, ?_⟩
            simp [segsOf, hsw, hsn, hs2]

/-! ### The grammar is accepted, whatever the dates -/

/-- A calendar in which every date is the hundredth day. -/
def mkDay : Mktime := fun t => (8640000, t)

theorem mkDay_days (t : Tm) : toDays (mkDay t).1 = 100 := by
  show toDays 8640000 = 100
  decide

theorem NumSyn.no_comma (n : NumSyn) : Tok.chr 44 ∉ n.toks := by cases n <;> simp [NumSyn.toks]

theorem good_date (c : CondSyn) : ¬ c.BadDate mkDay := by
  rintro ⟨hc, n, hn, hb⟩
  have h100 : (100 : UInt32).toNat = 100 := rfl
  cases c with
  | cmp op s m =>
    simp only [CondSyn.toks, List.mem_cons, reduceCtorEq, false_or] at hc
    rcases hc with hc | hc
    · cases op <;> simp [CmpOp.tok] at hc
    · exact m.no_comma hc
  | rangeO s lo hi =>
    simp [CondSyn.toks, lo.no_comma, hi.no_comma] at hc
  | rangeC s lo hi =>
    simp [CondSyn.toks, lo.no_comma, hi.no_comma] at hc
  | date op s m d y =>
    cases op <;> simp [CondSyn.cond, CmpOp.cond, NumCond.nums, validateDate, mkDay_days] at hn <;> subst hn <;> simp [h100] at hb
  | dateRange s m d1 d2 y =>
    simp only [CondSyn.cond, NumCond.nums, mkDay_days, List.mem_cons, List.not_mem_nil, or_false, or_self] at hn
    subst hn
    simp [h100] at hb

/-- The first token. -/
def startTok (b : Bool) : Tok := if b then .startPolicy else .startAttr

/-- Every policy and every list is accepted if dates are no problem. -/
theorem accepts_complete {b : Bool} {ts : List Tok} (h : Complete b ts) (ht : ∀ t ∈ ts, TokOk t) (d : Drv) (hb : d.isPolicy = b)
    (hp : d.policy = none) (ha : d.attrs = none) (hc : d.attrCount = []) {r : List Tok} (hr : la r = 0) (hrt : ∀ t ∈ r, TokOk t) :
    ∃ n d', yyRun mkDay n ⟨[(0, .none)], d, startTok b :: (ts ++ r)⟩ = .ok (true, d') := by
  have hT : ∀ t ∈ startTok b :: (ts ++ r), TokOk t := by
    intro t h
    rcases List.mem_cons.mp h with rfl | h
    · cases b <;> trivial
    · rcases List.mem_append.mp h with h | h
      · exact ht t h
      · exact hrt t h
  have hg := parse_good (mk := mkDay) b d hb hp ha hc _ hT
  refine ⟨yyFuel (startTok b :: (ts ++ r)).length, ?_⟩
  cases hrun : yyRun mkDay (yyFuel (startTok b :: (ts ++ r)).length) ⟨[(0, .none)], d, startTok b :: (ts ++ r)⟩ with
  | throw e => rw [hrun] at hg; exact hg.elim
  | abort => rw [hrun] at hg; exact hg.elim
  | ub =>
    rw [hrun] at hg
    obtain ⟨c, _, _, h3⟩ := hg
    exact absurd h3 (good_date c)
  | ok x =>
    obtain ⟨v, d'⟩ := x
    cases v with
    | true => exact ⟨d', rfl⟩
    | false =>
      exfalso
      cases b with
      | true =>
        obtain ⟨e, hv, he⟩ := h
        obtain ⟨n1, n2, n3⟩ := e.norm_spec
        have := e.norm.steps_le
        rw [he, ← n1] at hrun
        rw [show startTok true = .startPolicy from rfl, run_policy n2 (by rw [n3]; exact hv) d hr (by simp [yyFuel]; omega)] at hrun
        cases hx : e.norm.eval mkDay d <;> simp [hx, Res.bind] at hrun
      | false =>
        obtain ⟨a, hv, hca, he⟩ := h
        have := a.steps_le
        rw [he] at hrun
        rw [show startTok false = .startAttr from rfl, run_attrs hca hv d hr (by simp [yyFuel]; omega)] at hrun
        cases hx : a.eval mkDay d with
        | ok x =>
          simp only [hx, Res.bind] at hrun
          cases hy : setAttrlist x.2 x.1 <;> simp [hy, Res.bind] at hrun
        | _ => simp [hx, Res.bind] at hrun

/-! ### Places behind the tag -/

theorem match_tag (b : Bool) (s : Bytes) : yyMatch 1 0 (0, 0) (tagOf b ++ s) = (11, 4) := by
  cases b <;> rfl

theorem lex_tag (b : Bool) (s : Bytes) : lex (tagOf b ++ s) = startTok b :: lex s := by
  cases b
  · exact lex_prefix_attr s
  · exact lex_prefix_policy s

theorem TokenAt.unblank {s pre text : Bytes} {i : Nat} {t : Tok} (h : TokenAt (32 :: s) i t pre text) :
    ∃ pre', pre = 32 :: pre' ∧ TokenAt s i t pre' text := by
  obtain ⟨⟨post, h1, h2, h3⟩, h4, h5⟩ := h
  cases pre with
  | nil =>
    exfalso
    cases text with
    | nil => simp at h4
    | cons x text =>
      simp only [List.nil_append, List.cons_append, List.cons.injEq] at h1
      have := h5 x (by simp)
      rw [← h1.1] at this
      revert this; decide
  | cons x pre =>
    simp only [List.cons_append, List.cons.injEq] at h1
    obtain ⟨rfl, h1⟩ := h1
    exact ⟨pre, rfl, ⟨⟨post, by simpa using h1, h2, by rw [h3, lex_blank (by decide)]⟩, h4, h5⟩⟩

/-- The places of the tokens behind the tag. -/
theorem lexL_tag {b : Bool} {s : Bytes} (h : s.length + 5 < 2147483647) : ∃ ts l0,
    lexL (tagOf b ++ s) = .ok ((startTok b, l0) :: ts, ⟨posAt (tagOf b ++ s), posAt (tagOf b ++ s)⟩) ∧ ts.map Prod.fst = lex s ∧
      ∀ i t l, ts[i]? = some (t, l) → ∃ pre text, TokenAt s i t pre text ∧ l = placeOf (tagOf b ++ pre) t text := by
  obtain ⟨ts, e1, e2, e3⟩ := yyLexL_spec (s.length + 4) (32 :: s) ((tagOf b).take 4) (by simp) (by cases b <;> (simp [tagOf]; omega))
  have hs : (tagOf b).take 4 ++ 32 :: s = tagOf b ++ s := by cases b <;> rfl
  rw [hs] at e1
  have hm := match_tag b s
  have hdrop : (tagOf b ++ s).drop 4 = 32 :: s := by cases b <;> rfl
  have htake : (tagOf b ++ s).take 4 = (tagOf b).take 4 := by cases b <;> rfl
  have hlen : (tagOf b ++ s).length = s.length + 4 + 1 := by cases b <;> simp [tagOf]
  have hcol : Loc.columns (Loc.step {}) (((tagOf b).take 4).length : Int) = .ok ⟨⟨1, 1⟩, posAt ((tagOf b).take 4)⟩ := by
    cases b <;> rfl
  have hact : yyAction (yyAccept.getD 11 0) ((tagOf b).take 4) = some (startTok b) := by cases b <;> decide
  have hal : ∀ n l, actLoc (yyAccept.getD 11 0) n l = .ok l := fun _ _ => rfl
  refine ⟨ts, ⟨⟨1, 1⟩, posAt ((tagOf b).take 4)⟩, ?_, by rw [e2, lex_blank (by decide)], ?_⟩
  · unfold lexL
    rw [hlen]
    obtain ⟨x, r, hx⟩ : ∃ x r, tagOf b ++ s = x :: r := by cases b <;> exact ⟨_, _, rfl⟩
    rw [hx] at hm hdrop htake e1 ⊢
    generalize s.length + 4 = n at e1
    simp only [yyLexL, hm, hdrop, htake, hcol, hact, hal, Res.ok_bind]
    simp only [Loc.step, e1, Res.ok_bind]
  · intro i t l hi
    obtain ⟨pre, text, h1, h2⟩ := e3 i t l hi
    obtain ⟨pre', rfl, h3⟩ := h1.unblank
    refine ⟨pre', text, h3, ?_⟩
    rw [h2]
    cases b <;> rfl

/-! ### The report -/

theorem defact52 : (yyDefact.getD 52 0).toNat ≠ 0 := by decide

theorem Syn.viable {b : Bool} {ts w : List Tok} (h : Syn 32 (startTok b :: (ts ++ w))) (ht : ∀ t ∈ ts, TokOk t) (hw : ∀ t ∈ w, TokOk t) :
    Viable b ts := by
  have hall : ∀ t ∈ ts ++ w, TokOk t := by
    intro t h
    rcases List.mem_append.mp h with h | h
    · exact ht t h
    · exact hw t h
  unfold Viable
  rcases h with ⟨e, hv, he⟩ | ⟨a, hv, hc, he⟩
  · cases b with
    | true =>
      simp only [startTok, if_true, List.cons.injEq, true_and] at he
      rw [if_pos rfl]
      exact ⟨e, hv, by rw [← he]; exact hall, by rw [← he]; exact List.prefix_append _ _⟩
    | false => simp [startTok] at he
  · cases b with
    | true => simp [startTok] at he
    | false =>
      simp only [startTok, Bool.false_eq_true, if_false, List.cons.injEq, true_and] at he
      rw [if_neg (by simp)]
      exact ⟨a, hv, hc, by rw [← he]; exact hall, by rw [← he]; exact List.prefix_append _ _⟩

theorem Syn.complete {b : Bool} {ts : List Tok} (h : Syn 32 (startTok b :: ts)) : Complete b ts := by
  unfold Complete
  rcases h with ⟨e, hv, he⟩ | ⟨a, hv, hc, he⟩
  · cases b with
    | true =>
      simp only [startTok, if_true, List.cons.injEq, true_and] at he
      rw [if_pos rfl]
      exact ⟨e, hv, he⟩
    | false => simp [startTok] at he
  · cases b with
    | true => simp [startTok] at he
    | false =>
      simp only [startTok, Bool.false_eq_true, if_false, List.cons.injEq, true_and] at he
      rw [if_neg (by simp)]
      exact ⟨a, hv, hc, he⟩

theorem expected_look {s x : Nat} (h : x ∈ expectedOf s) : x ≤ 30 ∧ ∃ n, yyLook s x = some n := by
  unfold expectedOf at h
  simp only at h
  split at h
  · simp at h
  · split at h
    · simp only [List.mem_filter, List.mem_range, Bool.and_eq_true, decide_eq_true_eq] at h
      obtain ⟨h1, ⟨⟨⟨⟨h2, h3⟩, h4⟩, h5⟩, h6⟩⟩ := h
      refine ⟨by omega, ?_⟩
      rename_i hp _
      unfold yyLook
      simp only [hp, if_false]
      rw [Int.add_comm] at h2 h3 h4
      rw [if_neg (by rintro (h | h | h); omega; omega; exact h h4)]
      exact ⟨_, rfl⟩
    · simp at h

/-- Symbols with an entry for a state without a default. -/
theorem expected_tab : (states.all fun s => decide (s = 10) || decide ((yyDefact.getD s 0).toNat ≠ 0) ||
    (decide (expectedOf s ≠ []) && (List.range 31).all fun x => match yyLook s x with
      | none => true
      | some n => decide (n ≠ 23) && decide (n = 52 → s = 43) && decide (s = 43 → x = 5) && decide (x ∈ expectedOf s))) = true := by
  decide +kernel

theorem expected_facts {s : Nat} (hs : s < 75) (h10 : s ≠ 10) (hd : (yyDefact.getD s 0).toNat = 0) : expectedOf s ≠ [] ∧
    ∀ x n, x ≤ 30 → yyLook s x = some n → n ≠ 23 ∧ (n = 52 → s = 43) ∧ (s = 43 → x = 5) ∧ x ∈ expectedOf s := by
  have h1 := List.all_eq_true.mp expected_tab s (by simp [states]; omega)
  simp only [Bool.or_eq_true, Bool.and_eq_true, decide_eq_true_eq] at h1
  rcases h1 with (h | h) | h
  · exact absurd h h10
  · exact absurd hd h
  · refine ⟨h.1, fun x n hx hn => ?_⟩
    have h2 := List.all_eq_true.mp h.2 x (by simp; omega)
    rw [hn] at h2
    simp only [Bool.and_eq_true, decide_eq_true_eq] at h2
    exact ⟨h2.1.1.1, h2.1.1.2, h2.1.2, h2.2⟩

theorem defSeg_sym : ∀ x, x ∈ [4, 5, 9, 10, 12, 14, 15, 17, 18, 19, 20, 21, 22, 23, 24, 25, 26, 27, 28, 29, 30] →
    (defSeg x).map Tok.sym = [x] := by decide +kernel

theorem term_syms {x : Nat} (hx : x ≤ 30) (h0 : x ≠ 0) (h : x ≠ 1 ∧ x ≠ 2 ∧ x ≠ 3 ∧ x ≠ 6 ∧ x ≠ 7 ∧ x ≠ 8 ∧ x ≠ 11 ∧ x ≠ 13 ∧ x ≠ 16) :
    x ∈ [4, 5, 9, 10, 12, 14, 15, 17, 18, 19, 20, 21, 22, 23, 24, 25, 26, 27, 28, 29, 30] := by
  simp only [List.mem_cons, List.not_mem_nil, or_false]
  omega

/-- What a syntax error says, for the parser: the tokens before the reported one begin a policy (or a list), no text that goes on with
the reported token is accepted, and the expected symbols would go on. -/
theorem stops_spec {b : Bool} {ts : List Tok} {Ls : List Loc} {d : Drv} {R : Report} {said : List Loc} {k : Nat}
    (hdb : d.isPolicy = b) (hdc : d.attrCount = []) (hdp : d.policy = none) (hda : d.attrs = none) (hts : ∀ t ∈ ts, TokOk t)
    (h : StopsAt mk b (startTok b :: ts) Ls ⟨[(0, .none)], d, startTok b :: ts⟩ R said k) :
    ∃ T1 rest, ts = T1 ++ rest ∧ k = T1.length + 1 ∧ Viable b T1 ∧
      (∀ mk' d' rest', la rest' = la rest → NeverAccepts mk' ⟨[(0, .none)], d', startTok b :: (T1 ++ rest')⟩) ∧
      R.expected ≠ [] ∧ ∀ x ∈ R.expected, if x = 0 then Complete b T1 else ∃ t, t.sym = x ∧ Viable b (T1 ++ [t]) := by
  obtain ⟨⟨p, G, g, r, hreach, hi, hG, h10, hl, hd, hpt, hex⟩, hle, hloc, hsym, hsaid⟩ := h
  subst hG
  have hlt := hi.ok.lt
  have h52 : g.st ≠ 52 := fun h => defact52 (h ▸ hd)
  -- the first token has been shifted
  have hk0 : k ≠ 0 := by
    intro hk
    subst hk
    cases hreach with
    | refl =>
      have hst := hi.stack
      simp only [List.map_cons, List.cons.injEq, Prod.mk.injEq] at hst
      rw [← hst.1.1] at hl
      cases b <;> simp [startTok, la, Tok.sym] at hl <;> revert hl <;> decide
    | step hs hr =>
      rename_i c1
      have hsuf := reach_suffix hr
      rw [hpt] at hsuf
      obtain ⟨_, hc⟩ := next_cases (by omega) hs
      rcases hc with ⟨n, _, _, hc1⟩ | ⟨hn, _, _⟩
      · rw [hc1] at hsuf
        have := hsuf.length_le
        simp at this
      · cases b <;> simp [startTok, la, Tok.sym] at hn <;> revert hn <;> decide
  obtain ⟨k, rfl⟩ : ∃ j, k = j + 1 := ⟨k - 1, by omega⟩
  have hsplit : segsOf (g :: r) = startTok b :: ts.take k := by
    have h1 := hi.toks
    rw [hpt] at h1
    have h2 : startTok b :: ts = (startTok b :: ts.take k) ++ (startTok b :: ts).drop (k + 1) := by simp
    exact List.append_cancel_right (h1.trans h2)
  have hV := VOk.of_GOk rfl hi.ok h10
  have hfl : flatRev (((g :: r).map fun g => (g.st, g.seg)).map Prod.snd) = startTok b :: ts.take k := by
    rw [flatRev_segsOf, hsplit]
  have htake : ∀ t ∈ ts.take k, TokOk t := fun t ht => hts t (List.take_subset _ _ ht)
  obtain ⟨w, hw1, hw2, hw3, hw4⟩ := complete_from _ ((g :: r).map fun g => (g.st, g.seg)) (g.st, g.seg) (r.map fun g => (g.st, g.seg)) rfl hV (Nat.le_refl _) h10 h52
  rw [hfl, List.cons_append] at hw1
  have hdrop : (startTok b :: ts).drop (k + 1) = ts.drop k := rfl
  obtain ⟨hne, hef⟩ := expected_facts hlt h10 hd
  refine ⟨ts.take k, ts.drop k, by simp, by simp at hle ⊢; omega, hw1.viable htake hw4, ?_, hex ▸ hne, ?_⟩
  · intro mk' d' rest' hla
    have hi0 : PInv b (startTok b :: ts) [{ st := 0, val := .none, seg := [] }] ⟨[(0, .none)], d, startTok b :: ts⟩ := by
      refine ⟨rfl, ⟨rfl, rfl⟩, by simp [segsOf], hi.good, ?_, fun _ => hdc, ?_, ?_, hdb⟩
      · intro _ _ _ _; exact ⟨hdp, hda⟩
      · intro a h h35
        simp at h; subst h
        have : stos 0 = 0 := by decide
        simp [this] at h35
      · intro a h h10
        simp at h; subst h
        simp at h10
    have hst := hi.stack
    simp only [List.map_cons] at hst
    refine never_accepts (mk' := mk') (rest := ts.drop k) (rest' := rest') hla.symm hreach hi0 (U := startTok b :: ts.take k) rfl (by simp)
      (by simp) (by rw [hpt, hdrop]) hst h10 (by rw [hdrop] at hl; exact hl) hd
  · intro x hx
    rw [hex] at hx
    obtain ⟨hx30, n, hn⟩ := expected_look hx
    obtain ⟨hn0, hn75, hnst, hxs, hx0, hn10, hn3, hn23⟩ := look_facts hlt hx30 hn
    obtain ⟨e23, e52, e43, _⟩ := hef x n hx30 hn
    split
    · rename_i h0
      have h3 := hn10 (hx0.mp h0)
      rw [hw3 h3] at hw1
      rw [List.append_nil] at hw1
      exact hw1.complete
    · rename_i h0
      by_cases h43 : g.st = 43
      · refine ⟨.uint 32, by rw [e43 h43]; rfl, ?_⟩
        have := hw2 h43
        cases w with
        | nil => simp at this
        | cons t w =>
          simp at this
          subst this
          refine Syn.viable (w := w) (by simpa using hw1) ?_ (fun t ht => hw4 t (by simp [ht]))
          intro t ht
          rcases List.mem_append.mp ht with ht | ht
          · exact htake t ht
          · exact hw4 t (by simp at ht; simp [ht])
      · have hmem := term_syms hx30 h0 hxs
        have hds := defSeg_sym x hmem
        obtain ⟨t, ht⟩ : ∃ t, defSeg x = [t] := by
          cases hdx : defSeg x with
          | nil => rw [hdx] at hds; simp at hds
          | cons t l => rw [hdx] at hds; simp at hds; exact ⟨t, by rw [hds.2]⟩
        have hts' : t.sym = x := by rw [ht] at hds; simpa using hds
        refine ⟨t, hts', ?_⟩
        have hsyn : Syn x [t] := by
          rw [← ht]
          refine syn_def ?_
          simp only [List.mem_cons, List.not_mem_nil, or_false] at hmem ⊢
          omega
        have hV' : VOk ((n.toNat, [t]) :: (g :: r).map fun g => (g.st, g.seg)) := by
          refine ⟨hn75, ?_, ?_, ?_, hV⟩
          · show trans g.st (stos n.toNat) = some n.toNat
            rw [hnst]
            simp [trans, hx30, hn]
          · rw [hnst]; exact hsyn
          · intro h; simp only at h; omega
        obtain ⟨w', hw1', _, _, hw4'⟩ := complete_from _ _ (n.toNat, [t]) _ rfl hV' (Nat.le_refl _)
          (fun h => h0 (hx0.mpr h)) (fun h => h43 (e52 (by simp only at h; omega)))
        simp only [List.map_cons (f := Prod.snd), flatRev] at hw1'
        rw [hfl] at hw1'
        refine Syn.viable (w := w') (by simpa using hw1') ?_ hw4'
        intro u hu
        rcases List.mem_append.mp hu with hu | hu
        · exact htake u hu
        · simp at hu
          rw [hu]
          exact defSeg_tokOk (x := x) (by omega) t (by rw [ht]; simp)

/-- A report comes with a rejection. -/
theorem report_rejects : ∀ (fuel : Nat) (c : LConf) (R : Report) (b : Bool) (T : List Tok) (G : List GEnt), PInv b T G c.p →
    (yyRunL mk fuel c).2.2 = some R → ∃ d, (yyRunL mk fuel c).1 = .ok (false, d)
  | 0, c, R, _, _, _, _, h => by simp [yyRunL] at h
  | fuel + 1, c, R, b, T, G, hi, h => by
    have hst := hi.stack
    have hok := hi.ok
    cases G with
    | nil => simp [GOk] at hok
    | cons g r =>
    have hlt := hok.lt
    simp only [List.map_cons] at hst
    simp only [yyRunL, hst] at h ⊢
    have hp : (if g.st = 10 ∨ yyPact.getD g.st 0 = -20 then c else c.read).p = c.p := by
      split
      · rfl
      · exact c.read_p
    generalize (if g.st = 10 ∨ yyPact.getD g.st 0 = -20 then c else c.read) = c' at hp h ⊢
    have hcp : c'.p = ⟨(g.st, g.val) :: r.map (fun g => (g.st, g.val)), c.p.drv, c.p.toks⟩ := by rw [hp, ← hst]
    cases hstep : yyStep mk c'.p with
    | next p' =>
      simp only [hstep] at h ⊢
      obtain ⟨G1, hi1⟩ : ∃ G1, PInv b T G1 p' := by
        rcases step_inv (mk := mk) hi with ⟨c2, G2, h2, hp2, _⟩ | ⟨q, h2, _⟩
        · rw [← hp, hstep] at h2; cases h2; exact ⟨G2, hp2⟩
        · rw [← hp, hstep] at h2; cases h2
      exact report_rejects fuel _ R b T G1 hi1 h
    | stop res =>
      simp only [hstep] at h ⊢
      split at h
      · rename_i hf
        obtain ⟨h10, hf⟩ := hf
        rw [hp, yyFails_iff hlt (la_le _)] at hf
        rw [hcp] at hstep
        unfold yyStep at hstep
        simp only [h10, if_false, hf.1, hf.2, if_true, yyErr] at hstep
        injection hstep with hstep
        exact ⟨_, hstep.symm⟩
      · cases h

/-- The run of `parse` on a text, with everything it reports. -/
theorem parseLoc_spec {b : Bool} {s : Bytes} (h : s.length + 5 < 2147483647) : ∃ (said : List Loc) (rep : Option Report),
    parseLoc mk b s = .ok (parseString mk b s, said, rep) ∧ said.length ≤ 1 ∧
    (∀ d, parseString mk b s = .ok (true, d) → said = [] ∧ rep = none) ∧
    (∀ d, parseString mk b s = .ok (false, d) → rep = none →
      ∃ n w, [.uint n, .chr 35, .uint w] <:+: lex s ∧ checkValidBit n w = false) ∧
    (∀ R, rep = some R → (∃ d, parseString mk b s = .ok (false, d)) ∧
      ∃ T1 rest, lex s = T1 ++ rest ∧ Viable b T1 ∧ R.unexpected = some (la rest) ∧
        ((∃ pre t text r, rest = t :: r ∧ TokenAt s T1.length t pre text ∧ R.loc = placeOf (tagOf b ++ pre) t text) ∨
          (rest = [] ∧ R.loc = ⟨posAt (tagOf b ++ s), posAt (tagOf b ++ s)⟩)) ∧
        (said = if rest.head? = some .error then [R.loc] else []) ∧
        (∀ mk' d' rest', la rest' = la rest → NeverAccepts mk' ⟨[(0, .none)], d', startTok b :: (T1 ++ rest')⟩) ∧
        R.expected ≠ [] ∧ ∀ x ∈ R.expected, if x = 0 then Complete b T1 else ∃ t, t.sym = x ∧ Viable b (T1 ++ [t])) := by
  obtain ⟨ts, l0, e1, e2, e3⟩ := lexL_tag (b := b) h
  have htag : (if b = true then b!"[0]: " else b!"[1]: ") = tagOf b := by cases b <;> rfl
  have hlen : ts.length = (lex s).length := by rw [← e2]; simp
  let Ls : List Loc := l0 :: ts.map Prod.snd ++ [⟨posAt (tagOf b ++ s), posAt (tagOf b ++ s)⟩]
  let c : LConf := ⟨⟨[(0, .none)], { input := s, isPolicy := b }, startTok b :: lex s⟩, Ls, {}, false, []⟩
  have hrun : parseLoc mk b s = .ok (yyRunL mk (yyFuel (lex s).length.succ) c) := by
    unfold parseLoc
    simp only [htag, e1, Res.ok_bind, List.length_cons, List.map_cons, e2, hlen]
    rfl
  have hps : parseString mk b s = yyRun mk (yyFuel (lex s).length.succ) c.p := by
    unfold parseString
    simp only [htag, lex_tag, List.length_cons]
    rfl
  have hT : ∀ t ∈ lex s, TokOk t := fun t ht => tokOk_of_lex ht
  have hi : PInv b (startTok b :: lex s) [{ st := 0, val := .none, seg := [] }] c.p := by
    refine ⟨rfl, ⟨rfl, rfl⟩, by simp [segsOf, c], ?_, ?_, fun _ => rfl, ?_, ?_, rfl⟩
    · intro t ht
      rcases List.mem_cons.mp ht with rfl | ht
      · cases b <;> trivial
      · exact hT t ht
    · intro _ _ _ _; exact ⟨rfl, rfl⟩
    · intro a h h35
      simp at h; subst h
      have : stos 0 = 0 := by decide
      simp [this] at h35
    · intro a h h10
      simp at h; subst h
      simp at h10
  have hL : Ls.length = (startTok b :: lex s).length + 1 := by simp [Ls, hlen]
  have hl : LInv (startTok b :: lex s) Ls 0 c := ⟨rfl, Or.inl (Nat.zero_le _), rfl, by simp [c], by simp [c], by simp [c]⟩
  obtain ⟨h1, h2, h3⟩ := yyRunL_spec (mk := mk) hL (yyFuel (lex s).length.succ) c _ 0 hi hl
  have hres := yyRunL_run (mk := mk) (yyFuel (lex s).length.succ) c
  rw [← hps] at hres
  refine ⟨(yyRunL mk (yyFuel (lex s).length.succ) c).2.1, (yyRunL mk (yyFuel (lex s).length.succ) c).2.2, ?_, h2, ?_, ?_, ?_⟩
  · rw [hrun, ← hres]
  · intro d hd
    rw [← hres] at hd
    rw [h3 d hd]
    exact ⟨rfl, rfl⟩
  · intro d hd hrep
    obtain ⟨n, w, hw1, hw2⟩ := silent_width (mk := mk) (yyFuel (lex s).length.succ) c _ hi d (yyRunL mk (yyFuel (lex s).length.succ) c).2.1
      (by rw [← hrep, ← hd, ← hres])
    refine ⟨n, w, infix_cons_ne (by simp) ?_ hw1, hw2⟩
    cases b <;> simp [startTok]
  · intro R hR
    obtain ⟨d, hd⟩ := report_rejects _ _ R b _ _ hi hR
    refine ⟨⟨d, by rw [← hres, hd]⟩, ?_⟩
    obtain ⟨k, hk⟩ := h1 R hR
    obtain ⟨T1, rest, t1, t2, t3, t4, t5, t6⟩ := stops_spec (d := { input := s, isPolicy := b }) rfl rfl rfl rfl hT hk
    have hdrop : (startTok b :: lex s).drop k = rest := by rw [t2, t1]; simp
    refine ⟨T1, rest, t1, t3, by rw [hk.sym, hdrop], ?_, ?_, t4, t5, t6⟩
    · have hloc := hk.loc
      rw [t2] at hloc
      simp only [Ls, List.cons_append, List.getElem?_cons_succ] at hloc
      cases rest with
      | nil =>
        right
        refine ⟨rfl, ?_⟩
        have : T1.length = (ts.map Prod.snd).length := by rw [List.length_map, hlen, t1]; simp
        rw [this, List.getElem?_append_right (Nat.le_refl _)] at hloc
        simp at hloc
        exact hloc.symm
      | cons t r =>
        left
        have hlt : T1.length < ts.length := by rw [hlen, t1]; simp
        rw [List.getElem?_append_left (by simpa using hlt)] at hloc
        simp only [List.getElem?_map] at hloc
        have hti : (ts[T1.length]?).map Prod.fst = some t := by
          rw [← List.getElem?_map, e2, t1]; simp
        cases hg : ts[T1.length]? with
        | none => rw [hg] at hti; cases hti
        | some x =>
          obtain ⟨t', l⟩ := x
          rw [hg] at hti hloc
          simp at hti hloc
          subst hti hloc
          obtain ⟨pre, text, p1, p2⟩ := e3 _ _ _ hg
          exact ⟨pre, t', text, r, rfl, p1, p2⟩
    · have := hk.said
      rw [t2] at this
      have hh : (startTok b :: lex s)[T1.length + 1]? = rest.head? := by
        rw [t1]; simp
        cases rest <;> simp
      rw [hh] at this
      exact this

end Abe
