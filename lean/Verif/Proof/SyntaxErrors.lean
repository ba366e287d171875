import Verif.Proof.Viable
import Verif.Proof.Locations
import Verif.Proof.Parser
/-!
# Where the parser stops
-/
set_option linter.unusedSimpArgs false
set_option linter.unusedSectionVars false
set_option autoImplicit false
namespace Abe

variable {mk : Mktime}

/-! ### The run with locations is the run -/

theorem LConf.read_p (c : LConf) : c.read.p = c.p := by
  unfold LConf.read
  split <;> rfl

theorem yyRunL_run : ∀ (fuel : Nat) (c : LConf), (yyRunL mk fuel c).1 = yyRun mk fuel c.p
  | 0, c => rfl
  | fuel + 1, c => by
    simp only [yyRunL, yyRun]
    cases hs : c.p.stack with
    | nil =>
      have : yyStep mk c.p = .stop .ub := by unfold yyStep; rw [hs]
      rw [this]
    | cons x st =>
      obtain ⟨s, v⟩ := x
      simp only
      have e : (if s = 10 ∨ yyPact.getD s 0 = -20 then c else c.read).p = c.p := by
        split
        · rfl
        · exact c.read_p
      generalize (if s = 10 ∨ yyPact.getD s 0 = -20 then c else c.read) = c' at e
      rw [e]
      cases yyStep mk c.p with
      | stop r => rfl
      | next p' => exact yyRunL_run fuel _

/-! ### Reachable configurations -/

/-- Configurations reached by going on. -/
inductive Reach (mk : Mktime) : PConf → PConf → Prop
  | refl (c : PConf) : Reach mk c c
  | step {c c1 c2 : PConf} : yyStep mk c = .next c1 → Reach mk c1 c2 → Reach mk c c2

theorem yyFails_iff {s x : Nat} (hs : s < 75) (hx : x ≤ 30) :
    yyFails s x = true ↔ yyLook s x = none ∧ (yyDefact.getD s 0).toNat = 0 := by
  unfold yyFails
  cases h : yyLook s x with
  | none => simp
  | some n =>
    have := (look_facts hs hx h).1
    simp
    omega

/-- A round that goes on: a shift or a reduction. -/
theorem next_cases {s : Nat} {v : SVal} {st : List (Nat × SVal)} {d : Drv} {ts : List Tok} {c1 : PConf} (hs : s < 75)
    (h : yyStep mk ⟨(s, v) :: st, d, ts⟩ = .next c1) : s ≠ 10 ∧
    ((∃ n : Nat, yyLook s (la ts) = some (n : Int) ∧ 0 < n ∧ c1 = ⟨(n, laVal ts) :: (s, v) :: st, d, ts.tail⟩) ∨
     (yyLook s (la ts) = none ∧ (yyDefact.getD s 0).toNat ≠ 0 ∧
      yyReduce mk ⟨(s, v) :: st, d, ts⟩ (yyDefact.getD s 0).toNat = .next c1)) := by
  unfold yyStep at h
  simp only at h
  split at h
  · cases h
  · rename_i h10
    refine ⟨h10, ?_⟩
    split at h
    · rename_i hl
      split at h
      · simp [yyErr] at h
      · rename_i hr
        exact Or.inr ⟨hl, hr, h⟩
    · rename_i n hl
      have hn := (look_facts hs (la_le ts) hl).1
      rw [if_neg (by omega)] at h
      injection h with h
      refine Or.inl ⟨n.toNat, by rw [hl, Int.toNat_of_nonneg (by omega)], by omega, h.symm⟩

theorem reduce_next {c c1 : PConf} {r : Nat} (h : yyReduce mk c r = .next c1) :
    ∃ (s : Nat) (v : SVal) (below : List (Nat × SVal)) (x : SVal × Drv), c.stack.drop (yyR2.getD r 0).toNat = (s, v) :: below ∧
      c1 = ⟨(yyGoto s (yyR1.getD r 0).toNat, x.1) :: (s, v) :: below, x.2, c.toks⟩ := by
  unfold yyReduce at h
  simp only at h
  split at h <;> try (cases h)
  rename_i v d _
  split at h
  · cases h
  · rename_i s0 v0 below hb
    injection h with h
    exact ⟨s0, v0, below, (v, d), hb, by rw [← h, hb]⟩

theorem reach_suffix {c e : PConf} (h : Reach mk c e) : e.toks <:+ c.toks := by
  induction h with
  | refl c => exact List.suffix_refl _
  | step hs _ ih =>
    refine ih.trans ?_
    rename_i c c1 c2 _
    unfold yyStep at hs
    split at hs
    · cases hs
    · split at hs
      · cases hs
      · split at hs
        · simp only at hs
          split at hs
          · simp [yyErr] at hs
          · obtain ⟨_, _, _, _, _, h2⟩ := reduce_next hs
            rw [h2]; exact List.suffix_refl _
        · split at hs
          · split at hs
            · simp [yyErr] at hs
            · obtain ⟨_, _, _, _, _, h2⟩ := reduce_next hs
              rw [h2]; exact List.suffix_refl _
          · injection hs with hs
            rw [← hs]
            exact List.tail_suffix _

theorem reach_ten {c e : PConf} {v : SVal} {st : List (Nat × SVal)} (h : Reach mk c e) (hc : c.stack = (10, v) :: st) : e = c := by
  cases h with
  | refl => rfl
  | step hs _ =>
    unfold yyStep at hs
    rw [hc] at hs
    simp at hs

/-- The outcome of a run never is acceptance. -/
def NeverAccepts (mk : Mktime) (c : PConf) : Prop := ∀ n d, yyRun mk n c ≠ .ok (true, d)

theorem never_of_next {c c1 : PConf} (h : yyStep mk c = .next c1) (h1 : NeverAccepts mk c1) : NeverAccepts mk c := by
  intro n d
  cases n with
  | zero => simp [yyRun]
  | succ n => simp only [yyRun, h]; exact h1 n d

theorem never_of_stop {c : PConf} {r : Res (Bool × Drv)} (h : yyStep mk c = .stop r) (h1 : ∀ d, r ≠ .ok (true, d)) :
    NeverAccepts mk c := by
  intro n d
  cases n with
  | zero => simp [yyRun]
  | succ n => simp only [yyRun, h]; exact h1 d

theorem reduce_never {c : PConf} {r : Nat} {x : Res (Bool × Drv)} (h : yyReduce mk c r = .stop x) : ∀ d, x ≠ .ok (true, d) := by
  intro d
  unfold yyReduce at h
  simp only at h
  split at h
  · split at h
    · cases h; simp
    · cases h
  all_goals (cases h; simp)

/-- A run that follows another one up to a place where that one fails does not accept. Values, and with them the dates, do not matter. -/
theorem never_accepts {mk' : Mktime} {b : Bool} {T : List Tok} {rest rest' : List Tok} (hla : la rest = la rest') {c e : PConf}
    (h : Reach mk c e) : ∀ {c' : PConf} {G : List GEnt} {U : List Tok} {s : Nat} {v : SVal} {st : List (Nat × SVal)},
    PInv b T G c → c'.stack.map Prod.fst = c.stack.map Prod.fst → c.toks = U ++ rest → c'.toks = U ++ rest' → e.toks = rest →
    e.stack = (s, v) :: st → s ≠ 10 → yyLook s (la rest) = none → (yyDefact.getD s 0).toNat = 0 → NeverAccepts mk' c' := by
  induction h with
  | refl c =>
    intro c' G U s v st _ hst ht ht' he hes h10 hl hd
    have hU : U = [] := by
      rw [he] at ht
      have := congrArg List.length ht
      simp at this
      exact this
    subst hU
    rw [hes] at hst
    obtain ⟨st', d', ts'⟩ := c'
    cases st' with
    | nil => simp at hst
    | cons x st' =>
      obtain ⟨s', v'⟩ := x
      simp only [List.map_cons, List.cons.injEq] at hst
      simp only [List.nil_append] at ht'
      obtain ⟨rfl, _⟩ := hst
      refine never_of_stop (r := .ok (false, d'.error)) ?_ (by simp)
      unfold yyStep
      simp only [h10, if_false, ht', ← hla, hl, hd, if_true, yyErr]
  | step hs hr ih =>
    rename_i c c1 e
    intro c' G U s v st hi hst ht ht' he hes h10 hl hd
    have hi1 : ∃ G1, PInv b T G1 c1 := by
      rcases step_inv (mk := mk) hi with ⟨c2, G2, h2, hp, _⟩ | ⟨r, h2, _⟩
      · rw [hs] at h2; cases h2; exact ⟨G2, hp⟩
      · rw [hs] at h2; cases h2
    obtain ⟨G1, hi1⟩ := hi1
    have hlac : la c.toks = la c'.toks := by
      rw [ht, ht']
      cases U with
      | nil => exact hla
      | cons t U => rfl
    obtain ⟨cst, cd, cts⟩ := c
    obtain ⟨st', d', ts'⟩ := c'
    simp only at ht ht' hst hlac
    cases cst with
    | nil => unfold yyStep at hs; simp at hs
    | cons x cst =>
    obtain ⟨q, w⟩ := x
    cases st' with
    | nil => simp at hst
    | cons x' st' =>
    obtain ⟨q', w'⟩ := x'
    simp only [List.map_cons, List.cons.injEq] at hst
    obtain ⟨rfl, hst⟩ := hst
    have hq : q' < 75 := by
      have h1 := hi.stack
      have h2 := hi.ok
      cases G with
      | nil => simp at h1
      | cons g G =>
        simp only [List.map_cons, List.cons.injEq, Prod.mk.injEq] at h1
        have := h2.lt
        omega
    obtain ⟨hq10, hc⟩ := next_cases hq hs
    rcases hc with ⟨n, hn, hn0, hc1⟩ | ⟨hn, hdf, hred⟩
    · -- shift
      have hstep' : yyStep mk' ⟨(q', w') :: st', d', ts'⟩ = .next ⟨(n, laVal ts') :: (q', w') :: st', d', ts'.tail⟩ := by
        unfold yyStep
        simp only [hq10, if_false, ← hlac, hn]
        rw [if_neg (by omega)]
        simp
      refine never_of_next hstep' ?_
      have hU : U ≠ [] := by
        intro hU
        subst hU
        simp only [List.nil_append] at ht
        have hsuf := reach_suffix hr
        rw [he, hc1, ht] at hsuf
        simp only at hsuf
        have hrest : rest = [] := by
          cases rest with
          | nil => rfl
          | cons t r =>
            have := hsuf.length_le
            simp at this
        have h0 : la cts = 0 := by rw [ht, hrest]; rfl
        rw [h0] at hn
        have hf := look_facts hq (by omega) hn
        have hten : n = 10 := by
          have := hf.2.2.2.2.1.mp rfl
          simpa using this
        have := reach_ten hr (v := laVal cts) (st := (q', w) :: cst) (by rw [hc1, hten])
        rw [this, hc1] at hes
        simp only [List.cons.injEq, Prod.mk.injEq] at hes
        exact h10 (by omega)
      cases U with
      | nil => exact absurd rfl hU
      | cons t U =>
        refine ih hi1 (U := U) ?_ ?_ ?_ he hes h10 hl hd
        · rw [hc1]; simp [hst]
        · rw [hc1, ht]; simp
        · rw [ht']; simp
    · -- reduction
      have hstep' : yyStep mk' ⟨(q', w') :: st', d', ts'⟩ = yyReduce mk' ⟨(q', w') :: st', d', ts'⟩ (yyDefact.getD q' 0).toNat := by
        unfold yyStep
        simp only [hq10, if_false, ← hlac, hn, hdf]
      obtain ⟨s0, v0, below, x, hb, hc1⟩ := reduce_next hred
      cases hr' : yyReduce mk' ⟨(q', w') :: st', d', ts'⟩ (yyDefact.getD q' 0).toNat with
      | stop r => exact never_of_stop (hstep'.trans hr') (reduce_never hr')
      | next c1' =>
        refine never_of_next (hstep'.trans hr') ?_
        obtain ⟨s0', v0', below', x', hb', hc1'⟩ := reduce_next hr'
        have hdr : ((q', w') :: st').drop (yyR2.getD (yyDefact.getD q' 0).toNat 0).toNat = (s0', v0') :: below' := hb'
        have hdr0 : ((q', w) :: cst).drop (yyR2.getD (yyDefact.getD q' 0).toNat 0).toNat = (s0, v0) :: below := hb
        have hm : ((s0', v0') :: below').map Prod.fst = ((s0, v0) :: below).map Prod.fst := by
          rw [← hdr, ← hdr0, List.map_drop, List.map_drop]
          simp [hst]
        simp only [List.map_cons, List.cons.injEq] at hm
        obtain ⟨rfl, hm⟩ := hm
        refine ih hi1 (U := U) ?_ ?_ ?_ he hes h10 hl hd
        · rw [hc1, hc1']; simp [hm]
        · rw [hc1]; exact ht
        · rw [hc1']; exact ht'

/-! ### What is reported -/

/-- The state on top of the stack. -/
def topSt (c : PConf) : Nat := (c.stack.map Prod.fst).headD 0

/-- Invariant of the run with locations; `k` tokens have been shifted. -/
structure LInv (T : List Tok) (Ls : List Loc) (k : Nat) (c : LConf) : Prop where
  toks : c.p.toks = T.drop k
  room : k ≤ T.length ∨ topSt c.p = 10
  ahead : c.ahead = Ls.drop (if c.full then k + 1 else k)
  cur : c.full = true → Ls[k]? = some c.cur
  said : c.said = if c.full = true ∧ T[k]? = some .error then [c.cur] else []
  fin : topSt c.p = 10 → c.full = false

/-- A place where the parser reports an error. -/
structure StopsAt (mk : Mktime) (b : Bool) (T : List Tok) (Ls : List Loc) (c : PConf) (R : Report) (said : List Loc) (k : Nat) : Prop where
  reach : ∃ (p : PConf) (G : List GEnt) (g : GEnt) (r : List GEnt), Reach mk c p ∧ PInv b T G p ∧ G = g :: r ∧ g.st ≠ 10 ∧
    yyLook g.st (la (T.drop k)) = none ∧ (yyDefact.getD g.st 0).toNat = 0 ∧ p.toks = T.drop k ∧ R.expected = expectedOf g.st
  le : k ≤ T.length
  loc : Ls[k]? = some R.loc
  sym : R.unexpected = some (la (T.drop k))
  said : said = if T[k]? = some .error then [R.loc] else []

theorem pact_err : (states.all fun s => decide (s = 10) || decide (yyPact.getD s 0 ≠ -20) || decide ((yyDefact.getD s 0).toNat ≠ 0)) = true := by
  decide +kernel

theorem LInv.read {T : List Tok} {Ls : List Loc} {k : Nat} {c : LConf} (hL : Ls.length = T.length + 1) (h : LInv T Ls k c)
    (h10 : topSt c.p ≠ 10) : LInv T Ls k c.read ∧ c.read.full = true := by
  have hk : k ≤ T.length := by rcases h.room with h | h; exact h; exact absurd h h10
  unfold LConf.read
  split
  · rename_i hf
    exact ⟨h, hf⟩
  · rename_i hf
    have hf' : c.full = false := by simpa using hf
    have ha := h.ahead
    rw [hf'] at ha
    simp only [Bool.false_eq_true, if_false] at ha
    have hget : Ls[k]? = some (c.ahead.headD c.cur) := by
      rw [ha]
      have hlt : k < Ls.length := by omega
      rw [List.drop_eq_getElem_cons hlt, List.getElem?_eq_getElem hlt]
      rfl
    have hs := h.said
    rw [hf'] at hs
    simp only [Bool.false_eq_true, false_and, if_false] at hs
    have hhead : c.p.toks.head? = T[k]? := by rw [h.toks, List.head?_drop]
    refine ⟨⟨h.toks, h.room, ?_, fun _ => hget, ?_, fun h' => absurd h' h10⟩, rfl⟩
    · simp only [if_true, ha, List.tail_drop]
    · simp only [true_and, hs, List.nil_append, hhead]

theorem goto_fin : ∀ s, s < 75 → ∀ r, r ≤ 28 → yyGoto s (yyR1.getD r 0).toNat ≠ 10 := by decide +kernel

/-- What the run with locations reports. -/
theorem yyRunL_spec {b : Bool} {T : List Tok} {Ls : List Loc} (hL : Ls.length = T.length + 1) :
    ∀ (fuel : Nat) (c : LConf) (G : List GEnt) (k : Nat), PInv b T G c.p → LInv T Ls k c →
      (∀ R, (yyRunL mk fuel c).2.2 = some R → ∃ k', StopsAt mk b T Ls c.p R (yyRunL mk fuel c).2.1 k') ∧
      (yyRunL mk fuel c).2.1.length ≤ 1 ∧
      (∀ d, (yyRunL mk fuel c).1 = .ok (true, d) → (yyRunL mk fuel c).2 = ([], none))
  | 0, c, G, k, _, hl => by
    simp only [yyRunL]
    refine ⟨by simp, ?_, by simp⟩
    rw [hl.said]; split <;> simp
  | fuel + 1, c, G, k, hi, hl => by
    have hst := hi.stack
    have hok := hi.ok
    cases G with
    | nil => simp [GOk] at hok
    | cons g r =>
    have hlt := hok.lt
    simp only [List.map_cons] at hst
    have htop : topSt c.p = g.st := by simp [topSt, hst]
    -- the look-ahead
    obtain ⟨c', hc', hl', hp, hfull⟩ : ∃ c', (if g.st = 10 ∨ yyPact.getD g.st 0 = -20 then c else c.read) = c' ∧ LInv T Ls k c' ∧
        c'.p = c.p ∧ (¬ (g.st = 10 ∨ yyPact.getD g.st 0 = -20) → c'.full = true) := by
      by_cases h : g.st = 10 ∨ yyPact.getD g.st 0 = -20
      · exact ⟨c, if_pos h, hl, rfl, fun h' => absurd h h'⟩
      · obtain ⟨h1, h2⟩ := hl.read hL (by rw [htop]; exact fun h' => h (Or.inl h'))
        exact ⟨c.read, if_neg h, h1, c.read_p, fun _ => h2⟩
    have hsaid1 : c'.said.length ≤ 1 := by rw [hl'.said]; split <;> simp
    simp only [yyRunL, hst]
    rw [hc']
    cases hstep : yyStep mk c'.p with
    | stop res =>
      simp only [hstep]
      refine ⟨?_, hsaid1, ?_⟩
      case refine_2 =>
        intro d hd
        subst hd
        have h10 : g.st = 10 := by
          have hcp : c'.p = ⟨(g.st, g.val) :: r.map (fun g => (g.st, g.val)), c.p.drv, c.p.toks⟩ := by rw [hp, ← hst]
          by_cases h10 : g.st = 10
          · exact h10
          · exfalso
            rw [hcp] at hstep
            unfold yyStep at hstep
            simp only [h10, if_false] at hstep
            split at hstep
            · split at hstep
              · simp [yyErr] at hstep
              · exact reduce_never hstep d rfl
            · split at hstep
              · split at hstep
                · simp [yyErr] at hstep
                · exact reduce_never hstep d rfl
              · cases hstep
        rw [if_neg (fun h => h.1 h10)]
        have hf := hl'.fin (by rw [hp, htop, h10])
        rw [hl'.said, if_neg (by rw [hf]; simp)]
      intro R hR
      split at hR
      · rename_i hf
        obtain ⟨h10, hf⟩ := hf
        rw [hp, yyFails_iff hlt (la_le _)] at hf
        have hpact : yyPact.getD g.st 0 ≠ -20 := by
          have := List.all_eq_true.mp pact_err g.st (by simp [states]; omega)
          simp only [Bool.or_eq_true, decide_eq_true_eq] at this
          rcases this with (h | h) | h
          · exact absurd h h10
          · exact h
          · exact absurd hf.2 h
        have hfl := hfull (fun h => h.elim h10 hpact)
        have hk : k ≤ T.length := by
          rcases hl.room with h | h
          · exact h
          · rw [htop] at h; exact absurd h h10
        have htk : c.p.toks = T.drop k := hl.toks
        injection hR with hR
        have hrep : c'.report g.st = ⟨c'.cur, some (la (T.drop k)), expectedOf g.st⟩ := by
          unfold LConf.report
          rw [if_pos hfl, hp, htk]
        rw [hrep] at hR
        refine ⟨k, ⟨⟨c.p, g :: r, g, r, Reach.refl _, hi, rfl, h10, by rw [← htk]; exact hf.1, hf.2, htk, by rw [← hR]⟩, hk, ?_, by rw [← hR], ?_⟩⟩
        · rw [← hR]; exact hl'.cur hfl
        · rw [hl'.said, ← hR, hfl]; simp
      · cases hR
    | next p' =>
      simp only [hstep]
      have hstep0 : yyStep mk c.p = .next p' := by rw [← hp]; exact hstep
      obtain ⟨G1, hi1⟩ : ∃ G1, PInv b T G1 p' := by
        rcases step_inv (mk := mk) hi with ⟨c2, G2, h2, hp2, _⟩ | ⟨q, h2, _⟩
        · rw [hstep0] at h2; cases h2; exact ⟨G2, hp2⟩
        · rw [hstep0] at h2; cases h2
      have hcp : c.p = ⟨(g.st, g.val) :: r.map (fun g => (g.st, g.val)), c.p.drv, c.p.toks⟩ := by
        rw [← hst]
      obtain ⟨hq10, hcase⟩ := next_cases hlt (hcp ▸ hstep0)
      have hk : k ≤ T.length := by
        rcases hl.room with h | h
        · exact h
        · rw [htop] at h; exact absurd h hq10
      have key : ∃ k1, LInv T Ls k1 { c' with p := p', full := c'.full && !yyShifts g.st (la c'.p.toks) } := by
        rcases hcase with ⟨n, hn, hn0, hc1⟩ | ⟨hn, hdf, hred⟩
        · have hf := look_facts hlt (la_le _) hn
          have hsh : yyShifts g.st (la c'.p.toks) = true := by
            unfold yyShifts
            rw [hp, hn]
            simpa using hn0
          have hpact : yyPact.getD g.st 0 ≠ -20 := by
            intro h
            unfold yyLook at hn
            simp only [h, if_true] at hn
            cases hn
          have hfl := hfull (fun h => h.elim hq10 hpact)
          have hne : T[k]? ≠ some .error := by
            intro h
            have hh : la c.p.toks = 16 := by
              rw [hl.toks]
              have : (T.drop k).head? = some .error := by rw [List.head?_drop]; exact h
              cases hd : T.drop k with
              | nil => rw [hd] at this; cases this
              | cons t l => rw [hd] at this; simp at this; subst this; rfl
            exact hf.2.2.2.1.2.2.2.2.2.2.2.2 hh
          refine ⟨k + 1, ⟨?_, ?_, ?_, ?_, ?_, by simp [hsh]⟩⟩
          · show p'.toks = _
            rw [hc1]
            show c.p.toks.tail = _
            rw [hl.toks, List.tail_drop]
          · by_cases h : k + 1 ≤ T.length
            · exact Or.inl h
            · right
              have hz : la c.p.toks = 0 := by
                rw [hl.toks, List.drop_of_length_le (by omega)]; rfl
              have : n = 10 := by simpa using hf.2.2.2.2.1.mp hz
              show topSt p' = 10
              rw [hc1, this]; rfl
          · simp only [hsh, Bool.not_true, Bool.and_false, Bool.false_eq_true, if_false]
            rw [hl'.ahead, hfl]; rfl
          · simp [hsh]
          · simp only [hsh, Bool.not_true, Bool.and_false, Bool.false_eq_true, false_and, if_false]
            rw [hl'.said, if_neg (fun h => hne h.2)]
        · have hsh : yyShifts g.st (la c'.p.toks) = false := by
            unfold yyShifts
            rw [hp, hn]
          obtain ⟨s0, v0, below, x, hb, hc1⟩ := reduce_next hred
          refine ⟨k, ⟨?_, Or.inl hk, ?_, ?_, ?_, ?_⟩⟩
          case refine_5 =>
            intro h10'
            exfalso
            have h1 : topSt p' = 10 := h10'
            rw [hc1] at h1
            simp only [topSt, List.map_cons, List.headD_cons] at h1
            have hs0 : s0 < 75 := by
              have h2 := hi1.stack
              have h3 := hi1.ok
              rw [hc1] at h2
              cases G1 with
              | nil => simp at h2
              | cons g1 G1 =>
                cases G1 with
                | nil => simp at h2
                | cons g2 G1 =>
                  simp only [List.map_cons, List.cons.injEq, Prod.mk.injEq] at h2
                  have := h3.2.2.2.2.2.lt
                  omega
            exact goto_fin s0 hs0 _ (back_facts hlt hq10 rfl hdf).2.2.2 h1
          · show p'.toks = _
            rw [hc1]; exact hl.toks
          · simp only [hsh, Bool.not_false, Bool.and_true]; exact hl'.ahead
          · simp only [hsh, Bool.not_false, Bool.and_true]; exact hl'.cur
          · simp only [hsh, Bool.not_false, Bool.and_true]; exact hl'.said
      obtain ⟨k1, hl1⟩ := key
      obtain ⟨h1, h2, h2'⟩ := yyRunL_spec hL fuel _ G1 k1 hi1 hl1
      refine ⟨fun R hR => ?_, h2, h2'⟩
      obtain ⟨k', ⟨⟨p, G', g', r', h3⟩, h4, h5, h6, h7⟩⟩ := h1 R hR
      exact ⟨k', ⟨⟨p, G', g', r', Reach.step hstep0 h3.1, h3.2⟩, h4, h5, h6, h7⟩⟩

end Abe
