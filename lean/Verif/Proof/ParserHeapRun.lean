import Verif.Proof.ParserHeap
import Verif.Proof.Parser

/-!
The parser on a heap does what the parser on values does: simulation of the loop.
-/

set_option linter.unusedSimpArgs false
set_option linter.unusedSectionVars false
set_option autoImplicit false

namespace Abe
namespace PH

theorem sh_none {x : Nat} (h : x ≠ 4 ∧ x ≠ 5 ∧ x ≤ 30) : Sh x .none := by
  unfold Sh; split <;> first | omega | rfl

theorem chr_sym : ∀ b : UInt8, (Tok.chr b).sym ≠ 4 ∧ (Tok.chr b).sym ≠ 5 ∧ (Tok.chr b).sym ≤ 30 :=
  forall_uint8 (by decide +kernel)

theorem tok_sh (t : Tok) : Sh t.sym t.val := by
  cases t with
  | leaf s => exact ⟨_, rfl⟩
  | uint n => exact ⟨_, rfl⟩
  | chr b => exact sh_none (chr_sym b)
  | _ => rfl

theorem laVal_sh (ts : List Tok) : Sh (la ts) (laVal ts) := by
  cases ts with
  | nil => rfl
  | cons t r => exact tok_sh t

theorem chr_err : ∀ b : UInt8, (Tok.chr b).sym ≠ 16 := forall_uint8 (by decide +kernel)

theorem error_of_la {ts : List Tok} (h : la ts = 16) : Tok.error ∈ ts := by
  cases ts with
  | nil => cases h
  | cons t r =>
    cases t with
    | error => simp
    | chr b => exact absurd h (chr_err b)
    | _ => cases h

/-! ### Destroying symbols -/

theorem destroy_sim {h : Heap} {P : Items} {L : Loss} {x : Nat} {v : SVal} {w : HVal} (hx : Sh x v)
    (e : Holds h ((v, w) :: P) L) : ∃ h' M, destroy h x w = .ok h' ∧ Holds h' P (M ++ L) ∧ (∀ p ∈ M, p.2 = none) ∧
      (x ≠ 34 → M = []) := by
  by_cases h4 : x = 4
  · subst h4
    obtain ⟨s, rfl⟩ := hx
    obtain ⟨-, h', d, e'⟩ := holds_str e
    exact ⟨h', [], d, e', by simp, fun _ => rfl⟩
  by_cases h33 : x = 33
  · subst h33
    obtain ⟨s, rfl⟩ := hx
    obtain ⟨-, h', d, e'⟩ := holds_num e
    exact ⟨h', [], d, e', by simp, fun _ => rfl⟩
  by_cases h34 : x = 34
  · subst h34
    obtain ⟨t, rfl⟩ := hx
    obtain ⟨h', M, d, e', -, hM⟩ := holds_delTree e
    exact ⟨h', M, d, e', hM, fun h => absurd rfl h⟩
  by_cases h35 : x = 35
  · subst h35
    obtain ⟨l, rfl⟩ := hx
    cases l with
    | none =>
      obtain ⟨rfl, e'⟩ := holds_null.mp e
      exact ⟨h, [], rfl, e', by simp, fun _ => rfl⟩
    | some l =>
      obtain ⟨-, h', d, e'⟩ := holds_vec e
      exact ⟨h', [], d, e', by simp, fun _ => rfl⟩
  have hd : destroy h x w = .ok h := by simp [destroy, h4, h33, h34, h35]
  by_cases h5 : x = 5
  · subst h5
    obtain ⟨n, rfl⟩ := hx
    exact ⟨h, [], hd, (holds_uint.mp e).2, by simp, fun _ => rfl⟩
  have : v = .none := by
    unfold Sh at hx
    split at hx <;> omega
  subst this
  exact ⟨h, [], hd, holds_none.mp e, by simp, fun _ => rfl⟩

/-- A stack with its values and words. -/
abbrev Stk := List (Nat × SVal × HVal)

theorem destroyAll_sim : ∀ (Z : Stk) {h : Heap} {P : Items} {L : Loss}, Z ≠ [] → (∀ z ∈ Z, Sh (stos z.1) z.2.1) →
    (∀ z ∈ Z.getLast?, z.1 = 0) → Holds h (Z.map Prod.snd ++ P) L →
    ∃ h' M, destroyAll h (Z.map fun z => (z.1, z.2.2)) = .ok h' ∧ Holds h' P (M ++ L) ∧ (∀ p ∈ M, p.2 = none) ∧
      ((∀ z ∈ Z, stos z.1 ≠ 34) → M = [])
  | [], _, _, _, h0, _, _, _ => absurd rfl h0
  | [z], h, P, L, _, hs, hb, e => by
    have h0 : z.1 = 0 := hb z (by simp)
    have hv := hs z (by simp)
    have : stos 0 = 0 := by decide
    rw [h0, this] at hv
    have hv : z.2.1 = .none := hv
    refine ⟨h, [], rfl, ?_, by simp, fun _ => rfl⟩
    have e' : Holds h ((z.2.1, z.2.2) :: P) L := e
    rw [hv] at e'
    exact holds_none.mp e'
  | z :: z' :: r, h, P, L, _, hs, hb, e => by
    obtain ⟨h1, M1, d1, e1, m1, n1⟩ := destroy_sim (hs z (by simp)) (show Holds h ((z.2.1, z.2.2) :: _) L from e)
    obtain ⟨h2, M2, d2, e2, m2, n2⟩ := destroyAll_sim (z' :: r) (by simp) (fun y hy => hs y (by simp [hy]))
      (fun y hy => hb y (by simpa using hy)) e1
    refine ⟨h2, M2 ++ M1, ?_, by rw [List.append_assoc]; exact e2, ?_, ?_⟩
    · simp only [List.map_cons, destroyAll]
      have d1' : destroy h (yyStos.getD z.1 0).toNat z.2.2 = .ok h1 := d1
      rw [d1']
      simp only [Res.ok_bind]
      simpa using d2
    · intro p hp
      rcases List.mem_append.mp hp with hp | hp
      · exact m2 p hp
      · exact m1 p hp
    · intro hn
      rw [n2 (fun y hy => hn y (by simp [hy])), n1 (hn z (by simp))]
      rfl

/-! ### Related configurations -/

/-- The lookahead. -/
def LaRel (toks : List Tok) (x : Option Nat) (w : HVal) (input : List (Nat × Bytes)) (I : Items) (L : Loss) : Prop :=
  (x = none ∧ toks = toksOf input ∧ I = [] ∧ L = []) ∨
    (x = some (la toks) ∧ toks.tail = toksOf input ∧ I = [(laVal toks, w)] ∧
      (L = [] ∨ la toks = 16 ∧ ∀ p ∈ L, p.2 ≠ none))

/-- A configuration on values and one on a heap. -/
structure HRel (c : PConf) (hc : HConf) (Z : Stk) (I R : Items) (L : Loss) (nt : Prop) : Prop where
  cs : c.stack = Z.map fun z => (z.1, z.2.1)
  hs : hc.stack = Z.map fun z => (z.1, z.2.2)
  drv : hc.st.drv = strip c.drv
  root : RootRel c.drv hc.st.root R
  sh : ∀ z ∈ Z, Sh (stos z.1) z.2.1
  ne : Z ≠ []
  bot : ∀ z ∈ Z.getLast?, z.1 = 0
  la : LaRel c.toks hc.la hc.laval hc.input I L
  fin : ∀ z ∈ Z.head?, z.1 = 10 → L = []
  pol : nt → c.drv.policy = none
  holds : Holds hc.st.heap (I ++ (R ++ Z.map Prod.snd)) L

/-- What is left at the end. -/
def Fin (acc : Bool) (d : Drv) (st : HSt) (nt er : Prop) : Prop :=
  st.drv = strip d ∧ ∃ R L, RootRel d st.root R ∧ Holds st.heap R L ∧ (acc = true → L = []) ∧
    (nt → d.policy = none ∧ (∀ p ∈ L, p.2 ≠ none) ∧ (L ≠ [] → er))

theorem LaRel.names {toks : List Tok} {x : Option Nat} {w : HVal} {input : List (Nat × Bytes)} {I : Items} {L : Loss}
    (h : LaRel toks x w input I L) {er : Prop} (he : la toks = 16 → er) : (∀ p ∈ L, p.2 ≠ none) ∧ (L ≠ [] → er) := by
  rcases h with ⟨-, -, -, rfl⟩ | ⟨-, -, -, rfl | ⟨h16, h⟩⟩
  · simp
  · simp
  · exact ⟨h, fun _ => he h16⟩

theorem destroyLa_sim {h : Heap} {toks : List Tok} {x : Option Nat} {w : HVal} {input : List (Nat × Bytes)} {I P : Items}
    {L L' : Loss} (hl : LaRel toks x w input I L) (e : Holds h (I ++ P) L') :
    ∃ h', destroyLa h x w = .ok h' ∧ Holds h' P L' := by
  rcases hl with ⟨rfl, -, rfl, -⟩ | ⟨rfl, -, rfl, -⟩
  · exact ⟨h, rfl, e⟩
  · obtain ⟨h', M, d, e', -, hM⟩ := destroy_sim (laVal_sh toks) e
    have h30 := la_le toks
    have hm : M = [] := hM (by omega)
    subst hm
    exact ⟨h', d, e'⟩

/-- `yyreturn` on the whole stack. -/
theorem hReturn_sim {acc : Bool} {c : PConf} {hc : HConf} {Z : Stk} {I R : Items} {L : Loss} {nt er : Prop}
    (hr : HRel c hc Z I R L nt) (he : la c.toks = 16 → er) (hL : acc = true → L = [])
    (h34 : acc = true ∨ nt → ∀ z ∈ Z, stos z.1 ≠ 34) :
    ∃ st, hReturn acc hc = .ok (acc, st) ∧ Fin acc c.drv st nt er := by
  obtain ⟨h1, d1, e1⟩ := destroyLa_sim hr.la hr.holds
  obtain ⟨h2, M, d2, e2, m1, m2⟩ := destroyAll_sim Z hr.ne hr.sh hr.bot (e1.perm List.perm_append_comm)
  refine ⟨{ hc.st with heap := h2 }, ?_, hr.drv, R, M ++ L, hr.root, e2, ?_, ?_⟩
  · simp only [hReturn, d1, Res.ok_bind, hr.hs, d2]
  · intro ha
    rw [m2 (h34 (Or.inl ha)), hL ha]
    rfl
  · intro hn
    rw [m2 (h34 (Or.inr hn))]
    exact ⟨hr.pol hn, hr.la.names he⟩

/-- Every symbol is popped, then `yyreturn`. The stack may be shorter than the one of the values. -/
theorem hAbort_sim {d : Drv} {toks : List Tok} {hc : HConf} {Z : Stk} {I R : Items} {L L0 : Loss} {nt er : Prop}
    (hs : hc.stack = Z.map fun z => (z.1, z.2.2)) (hdrv : hc.st.drv = strip d) (hroot : RootRel d hc.st.root R)
    (sh : ∀ z ∈ Z, Sh (stos z.1) z.2.1) (ne : Z ≠ []) (bot : ∀ z ∈ Z.getLast?, z.1 = 0)
    (hla : LaRel toks hc.la hc.laval hc.input I L0) (e : Holds hc.st.heap (I ++ (R ++ Z.map Prod.snd)) L)
    (hp : nt → d.policy = none)
    (hL : nt → (∀ p ∈ L, p.2 ≠ none) ∧ (L ≠ [] → er)) (h34 : nt → ∀ z ∈ Z, stos z.1 ≠ 34) :
    ∃ st, hAbort hc = .ok (false, st) ∧ Fin false d st nt er := by
  have e' : Holds hc.st.heap (Z.map Prod.snd ++ (I ++ R)) L := by
    rw [← List.append_assoc] at e
    exact e.perm List.perm_append_comm
  obtain ⟨h1, M, d1, e1, m1, m2⟩ := destroyAll_sim Z ne sh bot e'
  obtain ⟨h2, d2, e2⟩ := destroyLa_sim hla e1
  obtain ⟨z, hz⟩ : ∃ z, hc.stack.drop (hc.stack.length - 1) = [z] := by
    have hl : (hc.stack.drop (hc.stack.length - 1)).length = 1 := by
      have : 0 < hc.stack.length := by rw [hs]; simpa using List.length_pos_iff.mpr ne
      rw [List.length_drop]; omega
    exact List.length_eq_one_iff.mp hl
  refine ⟨{ hc.st with heap := h2 }, ?_, hdrv, R, M ++ L, hroot, e2, by simp, ?_⟩
  · simp only [hAbort]
    rw [hs] at hz ⊢
    simp only [d1, Res.ok_bind, hReturn, d2, hz, destroyAll]
  · intro hn
    rw [m2 (h34 hn)]
    exact ⟨hp hn, hL hn⟩

theorem hErr_sim {c : PConf} {hc : HConf} {Z : Stk} {I R : Items} {L : Loss} {nt er : Prop}
    (hr : HRel c hc Z I R L nt) (he : la c.toks = 16 → er) (h34 : nt → c.drv.isPolicy = false ∧ ∀ z ∈ Z, stos z.1 ≠ 34) :
    ∃ st, hErr hc = .ok (false, st) ∧ Fin false c.drv.error st nt er := by
  by_cases hp : c.drv.isPolicy = true
  · have hp' : hc.st.drv.isPolicy = true := by rw [hr.drv]; exact hp
    have hde : hc.st.drv.error = strip c.drv.error := by
      rw [hr.drv]; simp [Drv.error, strip, hp]
    have hde' : c.drv.error.policy = none := by simp [Drv.error, hp]
    obtain ⟨h1, M, b1, e1⟩ : ∃ h1 M, errorH hc.st = .ok ⟨h1, hc.st.drv.error, none⟩ ∧
        Holds h1 (I ++ ([] ++ Z.map Prod.snd)) (M ++ L) := by
      rcases hr.root with ⟨-, h, rfl⟩ | ⟨p, t, a, -, -, h, rfl⟩
      · refine ⟨hc.st.heap, [], ?_, hr.holds⟩
        simp only [errorH, hp', if_true, h, Res.ok_bind]
      · obtain ⟨h1, M, d1, e1, -, -⟩ := holds_delTree (hr.holds.perm List.perm_middle)
        refine ⟨h1, M, ?_, e1⟩
        simp only [errorH, hp', if_true, h, d1, Res.ok_bind]
    obtain ⟨st, b2, f⟩ := hAbort_sim (hc := { hc with st := ⟨h1, hc.st.drv.error, none⟩ }) (nt := nt) (er := er) (R := []) hr.hs hde
      (Or.inl ⟨hde', rfl, rfl⟩) hr.sh hr.ne hr.bot hr.la e1
      (fun _ => hde') (fun hn => absurd (h34 hn).1 (by rw [hp]; simp)) (fun hn => (h34 hn).2)
    refine ⟨st, ?_, f⟩
    simp only [hErr, b1, Res.ok_bind, b2]
  · have hp' : ¬ hc.st.drv.isPolicy = true := by rw [hr.drv]; exact hp
    have hde : hc.st.drv.error = strip c.drv.error := by
      rw [hr.drv]; simp [Drv.error, strip, hp]
    have hde' : c.drv.error.policy = c.drv.policy := by simp [Drv.error, hp]
    have b1 : errorH hc.st = .ok ⟨hc.st.heap, hc.st.drv.error, hc.st.root⟩ := by simp only [errorH, if_neg hp']
    obtain ⟨st, b2, f⟩ := hAbort_sim (hc := { hc with st := ⟨hc.st.heap, hc.st.drv.error, hc.st.root⟩ }) (nt := nt) (er := er) (R := R)
      hr.hs hde (by unfold RootRel; rw [hde']; exact hr.root) hr.sh hr.ne hr.bot hr.la hr.holds
      (fun hn => by rw [hde']; exact hr.pol hn) (fun _ => hr.la.names he) (fun hn => (h34 hn).2)
    refine ⟨st, ?_, f⟩
    simp only [hErr, b1, Res.ok_bind, b2]

/-! ### One round -/

theorem hRead_sim {c : PConf} {hc : HConf} {Z : Stk} {I R : Items} {L : Loss} {nt : Prop} (hr : HRel c hc Z I R L nt)
    (h10 : ∀ z ∈ Z.head?, z.1 ≠ 10) :
    ∃ hc' I' L', hRead hc = .ok (la c.toks, hc') ∧ HRel c hc' Z I' R L' nt ∧ hc'.la = some (la c.toks) := by
  rcases hr.la with ⟨hn, ht, rfl, rfl⟩ | ⟨hs, ht, rfl, hL⟩
  · obtain ⟨x, w, h', rest, b1, k⟩ := scan_sim hc.input hc.laval hc.st.heap hr.holds
    have b2 : hRead hc = .ok (x, { hc with la := some x, laval := w, input := rest, st := { hc.st with heap := h' } }) := by
      simp only [hRead, hn, b1, Res.ok_bind]
    rcases k with ⟨k1, rfl, rfl, e⟩ | ⟨t, k1, rfl, k⟩
    · have hx : la c.toks = 0 := by rw [ht, k1]; rfl
      rw [hx]
      refine ⟨_, [(laVal c.toks, w)], [], b2, ⟨hr.cs, hr.hs, hr.drv, hr.root, hr.sh, hr.ne, hr.bot, Or.inr ⟨?_, ?_, rfl, Or.inl rfl⟩,
          fun _ _ _ => rfl, hr.pol, ?_⟩, rfl⟩
      · rw [hx]
      · rw [ht, k1]; rfl
      · rw [ht, k1]; exact holds_none.mpr e
    · have hx : la c.toks = t.sym := by rw [ht, k1]; rfl
      have hv : laVal c.toks = t.val := by rw [ht, k1]; rfl
      have htl : c.toks.tail = toksOf rest := by rw [ht, k1]; rfl
      rw [hx]
      cases k with
      | keep e =>
        refine ⟨_, [(laVal c.toks, w)], [], b2, ⟨hr.cs, hr.hs, hr.drv, hr.root, hr.sh, hr.ne, hr.bot, Or.inr ⟨?_, htl, rfl, Or.inl rfl⟩,
          fun _ _ _ => rfl, hr.pol, ?_⟩, rfl⟩
        · rw [hx]
        · rw [hv]; exact e
      | @lost a s e =>
        refine ⟨_, [(laVal c.toks, w)], [(a, some s)], b2, ⟨hr.cs, hr.hs, hr.drv, hr.root, hr.sh, hr.ne, hr.bot, Or.inr ⟨?_, htl, rfl, Or.inr ⟨hx, ?_⟩⟩,
          fun z hz h => absurd h (h10 z hz), hr.pol, ?_⟩, rfl⟩
        · rw [hx]
        · simp
        · rw [hv]; exact holds_none.mpr e
  · refine ⟨hc, _, L, ?_, hr, hs⟩
    simp only [hRead, hs]

theorem shs_of : ∀ (Z : Stk), (∀ z ∈ Z, Sh (stos z.1) z.2.1) → Shs (Z.map fun z => stos z.1) (Z.map Prod.snd)
  | [], _ => rfl
  | z :: Z, h => ⟨z.2.1, z.2.2, _, rfl, h z (by simp), shs_of Z fun y hy => h y (by simp [hy])⟩

/-- The symbol on top of a good stack has its kind of value. -/
theorem top_sh {b : Bool} {T : List Tok} {G : List GEnt} {c : PConf} (hi : PInv b T G c) {s : Nat} {v : SVal}
    {e : Nat × SVal} {r : List (Nat × SVal)} (hc : c.stack = (s, v) :: e :: r) (h0 : stos s ≠ 0) :
    Sh (stos s) v := by
  have h1 := hi.stack
  have h2 := hi.ok
  rw [hc] at h1
  cases G with
  | nil => cases h1
  | cons g G =>
    cases G with
    | nil => cases h1
    | cons g' G =>
      simp only [List.map_cons, List.cons.injEq, Prod.mk.injEq] at h1
      rw [h1.1.1] at h0 ⊢
      rw [h1.1.2]
      exact symOk_sh h2.2.2.1 h0

theorem hReduce_sim {mk : Mktime} {b : Bool} {T : List Tok} {G : List GEnt} {g : GEnt} {c : PConf} {hc : HConf} {Z : Stk}
    {I R : Items} {L : Loss} {r : Nat} {nt er : Prop} (hi : PInv b T (g :: G) c) (hr : HRel c hc Z I R L nt)
    (h10 : g.st ≠ 10) (hd : (yyDefact.getD g.st 0).toNat = r) (r0 : r ≠ 0)
    (hnext : ∀ c', yyReduce mk c r = .next c' → ∃ G', PInv b T G' c')
    (he : la c.toks = 16 → er) (h34 : nt → ∀ z ∈ Z, stos z.1 ≠ 34) :
    (∀ c', yyReduce mk c r = .next c' → ∃ hc' Z' R', hReduce mk hc r = .next hc' ∧ HRel c' hc' Z' I R' L nt) ∧
    (∀ acc d, yyReduce mk c r = .stop (.ok (acc, d)) → ∃ st, hReduce mk hc r = .stop (.ok (acc, st)) ∧ Fin acc d st nt er) ∧
    (yyReduce mk c r = .stop .ub → hReduce mk hc r = .stop .ub) := by
  have hlt : g.st < 75 := hi.ok.lt
  obtain ⟨hback, hlen, hr2, hr28⟩ := back_facts hlt h10 hd r0
  have hg3 : g.st ≠ 3 := by
    intro h
    rw [h] at hd
    have : (yyDefact.getD 3 0).toNat = 0 := by decide
    omega
  have hnone := (hi.outs g rfl hg3 h10).1
  obtain ⟨P, g0, Rs, hG, hP, hsegs, hgo, hok0⟩ := back_spec (rhsRev r) (g :: G) g G rfl hi.ok hback (rhs_ne0 r hr28)
  have hPl : P.length = (rhsRev r).length := by rw [← hP]; simp
  -- the same split of the common stack
  have hst : Z.map (fun z => (z.1, z.2.1)) = P.map (fun g => (g.st, g.val)) ++ (g0 :: Rs).map (fun g => (g.st, g.val)) := by
    rw [← hr.cs, hi.stack, hG, List.map_append]
  have hZ : Z = Z.take P.length ++ Z.drop P.length := (List.take_append_drop _ _).symm
  have hZ1 : (Z.take P.length).map (fun z => (z.1, z.2.1)) = P.map (fun g => (g.st, g.val)) := by
    rw [List.map_take, hst, List.take_left' (by simp)]
  have hZ2 : (Z.drop P.length).map (fun z => (z.1, z.2.1)) = (g0 :: Rs).map (fun g => (g.st, g.val)) := by
    rw [List.map_drop, hst, List.drop_left' (by simp)]
  generalize hA : Z.take P.length = A at hZ hZ1
  generalize hB : Z.drop P.length = B at hZ hZ2
  have hAl : A.length = (rhsRev r).length := by
    rw [← hPl]; simpa using congrArg List.length hZ1
  have hAs : A.map (fun z => stos z.1) = rhsRev r := by
    have : A.map (fun z => z.1) = P.map (fun g => g.st) := by
      simpa [Function.comp_def] using congrArg (List.map Prod.fst) hZ1
    have h2 := congrArg (List.map stos) this
    rw [← hP]
    simpa [Function.comp_def] using h2
  cases B with
  | nil => simp at hZ2
  | cons z0 B =>
  have hz0 : z0.1 = g0.st := by simp at hZ2; exact hZ2.1.1
  have hsh : Shs (rhsRev r) (A.map Prod.snd) := by
    rw [← hAs]
    exact shs_of A fun z hz => hr.sh z (by rw [hZ]; simp [hz])
  have hroot : hc.st.root = none ∧ R = [] := by
    rcases hr.root with ⟨-, h1, h2⟩ | ⟨p, _, _, h1, _⟩
    · exact ⟨h1, h2⟩
    · rw [hnone] at h1; cases h1
  obtain ⟨hroot, rfl⟩ := hroot
  have hdrv : hc.st.drv = c.drv := by rw [hr.drv, strip_none hnone]
  have hh : Holds hc.st.heap (A.map Prod.snd ++ (I ++ (z0 :: B).map Prod.snd)) L := by
    have := hr.holds
    rw [hZ, List.nil_append, List.map_append] at this
    refine this.perm ?_
    rw [← List.append_assoc, ← List.append_assoc]
    exact List.perm_append_comm.append_right _
  have hsim := act_sim (mk := mk) hr2 hr28 hroot hsh hh
  rw [hdrv] at hsim
  have t1 : (c.stack.take (yyR2.getD r 0).toNat).map Prod.snd = (A.map Prod.snd).map Prod.fst := by
    rw [hr.cs, hlen, ← hAl, hZ, List.map_append, List.take_left' (by simp)]
    simp [Function.comp_def]
  have t2 : c.stack.drop (yyR2.getD r 0).toNat = (z0 :: B).map (fun z => (z.1, z.2.1)) := by
    rw [hr.cs, hlen, ← hAl, hZ, List.map_append, List.drop_left' (by simp)]
  have t3 : (hc.stack.take (yyR2.getD r 0).toNat).map Prod.snd = (A.map Prod.snd).map Prod.snd := by
    rw [hr.hs, hlen, ← hAl, hZ, List.map_append, List.take_left' (by simp)]
    simp [Function.comp_def]
  have t4 : hc.stack.drop (yyR2.getD r 0).toNat = (z0 :: B).map (fun z => (z.1, z.2.2)) := by
    rw [hr.hs, hlen, ← hAl, hZ, List.map_append, List.drop_left' (by simp)]
  have hbot : ∀ z ∈ (z0 :: B).getLast?, z.1 = 0 := by
    intro z hz
    refine hr.bot z ?_
    rw [hZ]
    rw [List.getLast?_append]
    simp only [Option.mem_def] at hz ⊢
    rw [hz]; rfl
  have hshB : ∀ z ∈ z0 :: B, Sh (stos z.1) z.2.1 := fun z hz => hr.sh z (by rw [hZ]; exact List.mem_append_right _ hz)
  have hY : yyReduce mk c r = (match act mk r ((A.map Prod.snd).map Prod.fst) c.drv with
      | .ok (some (v, d)) => .next { c with
          stack := (yyGoto z0.1 (yyR1.getD r 0).toNat, v) :: (z0 :: B).map (fun z => (z.1, z.2.1)), drv := d }
      | .ok none => .stop (.ok (false, c.drv))
      | .throw e => .stop (.throw e)
      | .ub => .stop .ub
      | .abort => .stop .abort) := by
    unfold yyReduce
    simp only [t1, t2]
    rfl
  refine ⟨?_, ?_, ?_⟩
  · intro c' hc'
    have hc0 := hc'
    rw [hY] at hc'
    split at hc' <;> try cases hc'
    rename_i v d hact
    obtain ⟨w, st', R', b1, b2, b3, b4⟩ := hsim.ok v d hact
    obtain ⟨G', hi'⟩ := hnext _ hc0
    obtain ⟨n, hn⟩ := Option.isSome_iff_exists.mp hgo
    obtain ⟨hr1a, hr1b, hr132, -, -⟩ := tab_r1 r hr28 hr2
    obtain ⟨hn75, hnst, hnpos, hng⟩ := goto_facts hok0.lt (by omega) hn
    obtain ⟨hngo, hn10, hn23, hn3⟩ := hng (by omega)
    have hpol : r ≠ 2 → d.policy = none := by
      intro hr2'
      by_cases hr3 : r = 3
      · subst hr3
        obtain ⟨_, w1, _, hA', ⟨l, rfl⟩, _, w2, _, rfl, hv2, rfl⟩ := hsh
        rw [hA'] at hact
        cases l with
        | none => cases hact
        | some l => cases hact; exact hnone
      · have h1 := hi'.stack
        have h2 := hi'.outs
        cases G' with
        | nil => cases h1
        | cons g' G' =>
          have hg' : g'.st = n := by
            simp only [List.map_cons, List.cons.injEq, Prod.mk.injEq] at h1
            rw [← h1.1.1, hz0, hngo]
          exact (h2 g' rfl (by rw [hg']; omega) (by rw [hg']; exact hn10)).1
    refine ⟨{ hc with stack := (yyGoto z0.1 (yyR1.getD r 0).toNat, w) :: (z0 :: B).map (fun z => (z.1, z.2.2)), st := st' },
      (yyGoto z0.1 (yyR1.getD r 0).toNat, v, w) :: z0 :: B, R', ?_, ?_⟩
    · unfold hReduce
      simp only [t3, t4, b1]
      rfl
    · refine ⟨rfl, rfl, ?_, ?_, ?_, by simp, ?_, hr.la, ?_, ?_, ?_⟩
      · by_cases h2 : r = 2
        · exact (b3 h2).1
        · show st'.drv = strip d
          rw [strip_none (hpol h2), (b2 h2).1]
      · by_cases h2 : r = 2
        · exact (b3 h2).2
        · exact Or.inl ⟨hpol h2, (b2 h2).2.1, (b2 h2).2.2⟩
      · intro z hz
        rcases List.mem_cons.mp hz with rfl | hz
        · exact top_sh hi' (r := B.map (fun z => (z.1, z.2.1))) (e := (z0.1, z0.2.1)) rfl
            (by rw [hz0, ← hngo, hnst]; omega)
        · exact hshB z hz
      · intro z hz; exact hbot z (by simpa using hz)
      · intro z hz h
        simp at hz
        subst hz
        exact absurd (by rw [hngo, ← hz0]; exact h) hn10
      · intro hnt
        refine hpol ?_
        rintro rfl
        have h2 : 34 ∈ A.map (fun z => stos z.1) := by rw [hAs]; simp [rhsRev]
        obtain ⟨y, hy, hy'⟩ := List.mem_map.mp h2
        exact h34 hnt y (by rw [hZ]; exact List.mem_append_left _ hy) hy'
      · refine b4.perm ?_
        show List.Perm ((v, w) :: (R' ++ (I ++ (z0 :: B).map Prod.snd))) (I ++ (R' ++ (v, w) :: (z0 :: B).map Prod.snd))
        refine List.Perm.trans ?_ (List.perm_append_comm_assoc _ _ _)
        rw [← List.append_assoc, ← List.append_assoc]
        exact List.perm_middle.symm
  · intro acc d hc'
    rw [hY] at hc'
    split at hc' <;> try cases hc'
    rename_i hact
    obtain ⟨b1, b2⟩ := hsim.err hact
    obtain ⟨st, b3, f⟩ := hAbort_sim (d := c.drv) (Z := z0 :: B) (hc := { hc with stack := (z0 :: B).map (fun z => (z.1, z.2.2)) }) (R := [])
      (nt := nt) (er := er) rfl hr.drv hr.root hshB (by simp) hbot hr.la (by simpa using b2) hr.pol (fun _ => hr.la.names he)
      (fun hn z hz => h34 hn z (by rw [hZ]; exact List.mem_append_right _ hz))
    refine ⟨st, ?_, f⟩
    unfold hReduce
    simp only [t3, t4, b1, b3]
  · intro hc'
    rw [hY] at hc'
    split at hc' <;> try cases hc'
    rename_i hact
    have b1 := hsim.ub hact
    unfold hReduce
    simp only [t3, b1]

theorem step_sim {mk : Mktime} {b : Bool} {T : List Tok} {G : List GEnt} {c : PConf} {hc : HConf} {Z : Stk}
    {I R : Items} {L : Loss} {nt er : Prop} (hi : PInv b T G c) (hr : HRel c hc Z I R L nt)
    (he : la c.toks = 16 → er) (hnt : nt → b = false ∧ ∀ z ∈ Z, stos z.1 ≠ 34) :
    (∀ c', yyStep mk c = .next c' → ∃ hc' Z' I' R' L', hStep mk hc = .next hc' ∧ HRel c' hc' Z' I' R' L' nt) ∧
    (∀ acc d, yyStep mk c = .stop (.ok (acc, d)) → ∃ st, hStep mk hc = .stop (.ok (acc, st)) ∧ Fin acc d st nt er) ∧
    (yyStep mk c = .stop .ub → hStep mk hc = .stop .ub) := by
  have hnext : ∀ c', yyStep mk c = .next c' → ∃ G', PInv b T G' c' := by
    intro c' h
    rcases step_inv (mk := mk) hi with ⟨c1, G', h1, h2, -⟩ | ⟨r, h1, -⟩
    · rw [h] at h1; cases h1; exact ⟨G', h2⟩
    · rw [h] at h1; cases h1
  have hkind := hi.kind
  cases G with
  | nil => exact hi.ok.elim
  | cons g G =>
  cases Z with
  | nil => exact absurd rfl hr.ne
  | cons z Z =>
  have hz : z.1 = g.st := by
    have := hi.stack
    rw [hr.cs] at this
    simp only [List.map_cons, List.cons.injEq, Prod.mk.injEq] at this
    exact this.1.1
  have hlt : g.st < 75 := hi.ok.lt
  have hcs : c.stack = (g.st, z.2.1) :: Z.map fun z => (z.1, z.2.1) := by rw [hr.cs, ← hz]; rfl
  have hhs : hc.stack = (g.st, z.2.2) :: Z.map fun z => (z.1, z.2.2) := by rw [hr.hs, ← hz]; rfl
  by_cases h10 : g.st = 10
  · -- accept
    have hY : yyStep mk c = .stop (.ok (true, c.drv)) := by
      unfold yyStep; rw [hcs]; simp [h10]
    have hH : hStep mk hc = .stop (hReturn true hc) := by
      unfold hStep; rw [hhs]; simp [h10]
    rw [hY, hH]
    refine ⟨(by intro _ h; cases h), ?_, (by intro h; cases h)⟩
    intro acc d h
    cases h
    -- the stack below
    have hok := hi.ok
    have hs10 : stos 10 = 0 := by decide
    have hall : ∀ y ∈ z :: Z, stos y.1 ≠ 34 := by
      have hst := hi.stack
      rw [hr.cs] at hst
      have hfst : (z :: Z).map (fun z => z.1) = (g :: G).map (fun g => g.st) := by
        simpa [Function.comp_def] using congrArg (List.map Prod.fst) hst
      have hall' : ∀ x ∈ (g :: G).map (fun g => g.st), stos x ≠ 34 := by
        cases G with
        | nil => simp only [GOk] at hok; omega
        | cons g1 G =>
        have hok1 := hok.2.2.2.2.2
        have ht := hok.2.1
        rw [h10, hs10] at ht
        have h3 : g1.st = 3 := by
          have := List.all_eq_true.mp tab_acc g1.st (by simp [states]; exact hok1.lt)
          simpa [ht] using this
        cases G with
        | nil => simp only [GOk] at hok1; omega
        | cons g2 G =>
        have hok2 := hok1.2.2.2.2.2
        have hs3 : stos 3 = 32 := by decide
        have ht1 := hok1.2.1
        rw [h3, hs3] at ht1
        have h0 := trans_32 ht1
        have := hok2.bottom h0
        subst this
        intro x hx
        simp only [List.map_cons, List.map_nil, List.mem_cons, List.not_mem_nil, or_false] at hx
        rcases hx with rfl | rfl | rfl
        · rw [h10]; decide
        · rw [h3]; decide
        · rw [h0]; decide
      intro y hy
      exact hall' y.1 (by rw [← hfst]; exact List.mem_map_of_mem (f := fun z : Nat × SVal × HVal => z.1) hy)
    have hL : L = [] := hr.fin z rfl (by rw [hz]; exact h10)
    obtain ⟨st, b1, f⟩ := hReturn_sim (acc := true) (nt := nt) (er := er) hr he (fun _ => hL) (fun _ => hall)
    exact ⟨st, by rw [b1], f⟩
  · -- the default action, before or after reading
    have hdflt : ∀ (hc : HConf) (I : Items) (L : Loss), HRel c hc (z :: Z) I R L nt → yyLook g.st (la c.toks) = none →
        (∀ c', yyStep mk c = .next c' → ∃ hc' Z' I' R' L', (if (yyDefact.getD g.st 0).toNat = 0 then HStep.stop (hErr hc)
          else hReduce mk hc (yyDefact.getD g.st 0).toNat) = .next hc' ∧ HRel c' hc' Z' I' R' L' nt) ∧
        (∀ acc d, yyStep mk c = .stop (.ok (acc, d)) → ∃ st, (if (yyDefact.getD g.st 0).toNat = 0 then HStep.stop (hErr hc)
          else hReduce mk hc (yyDefact.getD g.st 0).toNat) = .stop (.ok (acc, st)) ∧ Fin acc d st nt er) ∧
        (yyStep mk c = .stop .ub → (if (yyDefact.getD g.st 0).toNat = 0 then HStep.stop (hErr hc)
          else hReduce mk hc (yyDefact.getD g.st 0).toNat) = .stop .ub) := by
      intro hc I L hr hl
      have hY : yyStep mk c = if (yyDefact.getD g.st 0).toNat = 0 then yyErr c else yyReduce mk c (yyDefact.getD g.st 0).toNat := by
        unfold yyStep
        rw [hcs]
        simp only [h10, hl, if_false]
      by_cases hr0 : (yyDefact.getD g.st 0).toNat = 0
      · rw [hY]
        simp only [hr0, if_true]
        obtain ⟨st, b1, f⟩ := hErr_sim (nt := nt) (er := er) hr he (fun hn => ⟨by rw [hkind]; exact (hnt hn).1, (hnt hn).2⟩)
        refine ⟨(by intro _ h; cases h), ?_, (by intro h; cases h)⟩
        intro acc d h
        cases h
        exact ⟨st, by rw [b1], f⟩
      · rw [if_neg hr0] at hY
        rw [hY] at hnext
        rw [hY]
        simp only [if_neg hr0]
        obtain ⟨k1, k2, k3⟩ := hReduce_sim (nt := nt) (er := er) hi hr h10 rfl hr0 hnext he (fun hn => (hnt hn).2)
        refine ⟨?_, k2, k3⟩
        intro c' h
        obtain ⟨hc', Z', R', e1, e2⟩ := k1 c' h
        exact ⟨hc', Z', I, R', L, e1, e2⟩
    by_cases hpact : yyPact.getD g.st 0 = -20
    · have hl : yyLook g.st (la c.toks) = none := by unfold yyLook; simp only [hpact, if_true]
      have hH : hStep mk hc = if (yyDefact.getD g.st 0).toNat = 0 then HStep.stop (hErr hc)
          else hReduce mk hc (yyDefact.getD g.st 0).toNat := by
        unfold hStep
        rw [hhs]
        simp only [h10, hpact, if_false, if_true]
      rw [hH]
      exact hdflt hc I L hr hl
    · obtain ⟨hc', I', L', b1, hr', hla'⟩ := hRead_sim hr (fun y hy => by simp at hy; subst hy; rw [hz]; exact h10)
      have hla30 : la c.toks ≤ 30 := la_le _
      cases hl : yyLook g.st (la c.toks) with
      | none =>
        have hH : hStep mk hc = if (yyDefact.getD g.st 0).toNat = 0 then HStep.stop (hErr hc')
            else hReduce mk hc' (yyDefact.getD g.st 0).toNat := by
          unfold hStep
          rw [hhs]
          simp only [h10, hpact, if_false, b1, Res.ok_bind, hl, HStep.ofRes]
        rw [hH]
        exact hdflt hc' I' L' hr' hl
      | some n =>
        obtain ⟨hn0, hn75, hnst, hx, hx0, hn10, hn3, hn23⟩ := look_facts hlt hla30 hl
        have hY : yyStep mk c = .next { c with stack := (n.toNat, laVal c.toks) :: c.stack, toks := c.toks.tail } := by
          unfold yyStep
          rw [hcs]
          simp only [h10, hl, if_false]
          rw [if_neg (by omega)]
        have hH : hStep mk hc = .next { hc' with stack := (n.toNat, hc'.laval) :: hc'.stack, la := none } := by
          unfold hStep
          rw [hhs]
          simp only [h10, hpact, if_false, b1, Res.ok_bind, hl, HStep.ofRes]
          rw [if_neg (by omega)]
        rw [hY, hH]
        refine ⟨?_, (by intro _ _ h; cases h), (by intro h; cases h)⟩
        intro c' h
        cases h
        obtain ⟨htl, hI, hL⟩ : c.toks.tail = toksOf hc'.input ∧ I' = [(laVal c.toks, hc'.laval)] ∧ L' = [] := by
          rcases hr'.la with ⟨h, -⟩ | ⟨-, h1, h2, h3 | ⟨h3, -⟩⟩
          · rw [hla'] at h; cases h
          · exact ⟨h1, h2, h3⟩
          · exact absurd h3 hx.2.2.2.2.2.2.2.2
        subst hI hL
        refine ⟨_, (n.toNat, laVal c.toks, hc'.laval) :: z :: Z, [], R, [], rfl, ?_, ?_, hr'.drv, hr'.root, ?_, by simp, ?_,
          Or.inl ⟨rfl, htl, rfl, rfl⟩, fun _ _ _ => rfl, hr'.pol, ?_⟩
        · rw [hr'.cs]; rfl
        · rw [hr'.hs]; rfl
        · intro y hy
          rcases List.mem_cons.mp hy with rfl | hy
          · show Sh (stos n.toNat) (laVal c.toks)
            rw [hnst]; exact laVal_sh _
          · exact hr'.sh y hy
        · intro y hy; exact hr'.bot y (by simpa using hy)
        · refine hr'.holds.perm ?_
          show List.Perm ((laVal c.toks, hc'.laval) :: (R ++ (z :: Z).map Prod.snd)) (R ++ (laVal c.toks, hc'.laval) :: (z :: Z).map Prod.snd)
          exact List.perm_middle.symm

/-- The two loops give the same result, and what is left is described by `Fin`. -/
theorem run_sim {mk : Mktime} {b : Bool} {T : List Tok} {nt er : Prop}
    (he : Tok.error ∈ T → er) (hnt : nt → b = false ∧ ∀ G c, PInv b T G c → ∀ g ∈ G, stos g.st ≠ 34) :
    ∀ (fuel : Nat) (G : List GEnt) (c : PConf) (hc : HConf) (Z : Stk) (I R : Items) (L : Loss), PInv b T G c → HRel c hc Z I R L nt →
    (∀ acc d, yyRun mk fuel c = .ok (acc, d) → ∃ st, hRun mk fuel hc = .ok (acc, st) ∧ Fin acc d st nt er) ∧
    (yyRun mk fuel c = .ub → hRun mk fuel hc = .ub)
  | 0, _, _, _, _, _, _, _, _, _ => ⟨(by intro _ _ h; cases h), fun _ => rfl⟩
  | fuel + 1, G, c, hc, Z, I, R, L, hi, hr => by
    obtain ⟨k1, k2, k3⟩ := step_sim (mk := mk) (nt := nt) (er := er) hi hr (fun h16 => he (by
      rw [← hi.toks]
      exact List.mem_append_right _ (error_of_la h16))) (fun hn => by
      refine ⟨(hnt hn).1, fun z hz => ?_⟩
      have h1 := (hnt hn).2 G c hi
      have hst := hi.stack
      rw [hr.cs] at hst
      have hfst : Z.map (fun z => z.1) = G.map (fun g => g.st) := by
        simpa [Function.comp_def] using congrArg (List.map Prod.fst) hst
      have : z.1 ∈ G.map (fun g => g.st) := by
        rw [← hfst]; exact List.mem_map_of_mem (f := fun z : Nat × SVal × HVal => z.1) hz
      obtain ⟨g, hg, he⟩ := List.mem_map.mp this
      rw [← he]; exact h1 g hg)
    simp only [yyRun, hRun]
    rcases step_inv (mk := mk) hi with ⟨c', G', hs, hi', hm⟩ | ⟨r, hs, hg⟩
    · obtain ⟨hc', Z', I', R', L', e1, e2⟩ := k1 c' hs
      rw [hs, e1]
      exact run_sim he hnt fuel G' c' hc' Z' I' R' L' hi' e2
    · rw [hs]
      constructor
      · intro acc d h
        have h : r = .ok (acc, d) := h
        obtain ⟨st, e1, e2⟩ := k2 acc d (by rw [hs, h])
        exact ⟨st, by rw [e1], e2⟩
      · intro h
        have h : r = .ub := h
        rw [k3 (by rw [hs, h])]

/-! ### Texts of attribute lists -/

/-- The states that can be reached after the start of an attribute list. -/
def attrStates : List Nat := [2, 7, 8, 9, 21, 22, 23, 40, 24, 41, 42, 51, 43, 61, 52, 70]

theorem attr_closed : (attrStates.all fun s => (List.range 36).all fun x =>
    match trans s x with
    | none => true
    | some n => decide (n ∈ attrStates)) = true := by decide +kernel

theorem attr_stos : ∀ s ∈ 0 :: 3 :: 10 :: attrStates, stos s ≠ 34 := by decide +kernel

theorem tab_zero : ((List.range 36).all fun x =>
    match trans 0 x with
    | none => true
    | some n => decide (n = 1 ∧ x = 17 ∨ n = 2 ∨ n = 3)) = true := by decide +kernel

theorem tab_three : ((List.range 36).all fun x =>
    match trans 3 x with
    | none => true
    | some n => decide (n = 10)) = true := by decide +kernel

theorem tab_ten : ((List.range 36).all fun x => (trans 10 x).isNone) = true := by decide +kernel

/-- After the start of an attribute list, only its states are on the stack. -/
theorem attr_states {T : List Tok} (hT : T.head? = some .startAttr) : ∀ (G : List GEnt), GOk G → (∃ ts, segsOf G ++ ts = T) →
    ∀ g ∈ G, g.st ∈ 0 :: 3 :: 10 :: attrStates
  | [], h, _ => h.elim
  | [g], h, _ => by
    intro y hy
    simp at hy
    subst hy
    rw [h.1]; simp
  | g :: g' :: r, h, ⟨ts, hts⟩ => by
    have ih := attr_states hT (g' :: r) h.2.2.2.2.2 ⟨g.seg ++ ts, by rw [← hts]; simp [segsOf]⟩
    intro y hy
    rcases List.mem_cons.mp hy with rfl | hy
    swap
    · exact ih y hy
    have h1 := ih g' (by simp)
    have htr := h.2.1
    have h35 := stos_le _ h.1
    simp only [List.mem_cons] at h1
    rcases h1 with h0 | h3 | h10 | ha
    · have hr := h.2.2.2.2.2.bottom h0
      subst hr
      rw [h0] at htr
      have := List.all_eq_true.mp tab_zero (stos y.st) (by simp; omega)
      rw [htr] at this
      simp only [decide_eq_true_eq] at this
      rcases this with ⟨h1, h17⟩ | h2 | h3
      · exfalso
        have hs := h.2.2.1
        rw [h17] at hs
        have hseg := hs.invFixed (t := .startPolicy) rfl
        have hg : g'.seg = [] := h.2.2.2.2.2.2
        rw [← hts] at hT
        simp [segsOf, hg, hseg] at hT
      · rw [h2]; simp [attrStates]
      · rw [h3]; simp
    · rw [h3] at htr
      have := List.all_eq_true.mp tab_three (stos y.st) (by simp; omega)
      rw [htr] at this
      simp only [decide_eq_true_eq] at this
      rw [this]; simp
    · rw [h10] at htr
      have := List.all_eq_true.mp tab_ten (stos y.st) (by simp; omega)
      rw [htr] at this
      cases this
    · have := List.all_eq_true.mp (List.all_eq_true.mp attr_closed g'.st ha) (stos y.st) (by simp; omega)
      rw [htr] at this
      simp only [decide_eq_true_eq] at this
      simp only [List.mem_cons]
      exact Or.inr (Or.inr (Or.inr this))

/-! ### The whole call -/

theorem startH (b : Bool) (s : Bytes) :
    HRel { stack := [(0, SVal.none)], drv := { input := s, isPolicy := b },
           toks := lex ((if b then b!"[0]: " else b!"[1]: ") ++ s) } (hStart ⟨[]⟩ b s) [(0, .none, .junk)] [] [] [] (b = false) := by
  refine ⟨rfl, rfl, rfl, Or.inl ⟨rfl, rfl, rfl⟩, ?_, by simp, ?_, Or.inl ⟨rfl, ?_, rfl, rfl⟩, fun _ _ _ => rfl, fun _ => rfl, ?_⟩
  · intro z hz
    simp at hz
    subst hz
    have : stos 0 = 0 := by decide
    show Sh (stos 0) .none
    rw [this]; rfl
  · intro z hz; simp at hz; subst hz; rfl
  · exact (toksOf_lexemes _ _).symm
  · refine holds_none.mpr ⟨[], rfl, by simp [addrs], fun a => ?_, by simp⟩
    simp [hStart, Heap.get, addrs]

theorem parse_sim (mk : Mktime) (b : Bool) (s : Bytes) :
    (∀ acc d, parseString mk b s = .ok (acc, d) → ∃ st, parseHeap mk b s = .ok (acc, st) ∧
      Fin acc d st (b = false) (Tok.error ∈ lex s)) ∧
    (parseString mk b s = .ub → parseHeap mk b s = .ub) := by
  have hT : ∀ t ∈ lex ((if b then b!"[0]: " else b!"[1]: ") ++ s), TokOk t := fun t ht => tokOk_of_lex ht
  let g : GEnt := { st := 0, val := .none, seg := [] }
  have hi : PInv b (lex ((if b then b!"[0]: " else b!"[1]: ") ++ s)) [g]
      { stack := [(0, SVal.none)], drv := { input := s, isPolicy := b },
        toks := lex ((if b then b!"[0]: " else b!"[1]: ") ++ s) } := by
    refine ⟨rfl, ⟨rfl, rfl⟩, by simp [segsOf, g], hT, ?_, fun _ => rfl, ?_, ?_, rfl⟩
    · intro _ _ _ _; exact ⟨rfl, rfl⟩
    · intro a h h35
      simp at h; subst h
      have : stos 0 = 0 := by decide
      simp [g, this] at h35
    · intro a h h10
      simp at h; subst h
      simp [g] at h10
  refine run_sim (mk := mk) ?_ ?_ _ [g] _ _ _ _ _ _ hi (startH b s)
  · cases b
    · simp only [Bool.false_eq_true, if_false, lex_prefix_attr]; simp
    · simp only [if_true, lex_prefix_policy]; simp
  · rintro rfl
    refine ⟨rfl, fun G c hi' y hy => ?_⟩
    refine attr_stos _ (attr_states ?_ G hi'.ok ⟨_, hi'.toks⟩ y hy)
    simp only [Bool.false_eq_true, if_false, lex_prefix_attr]; rfl

end PH
end Abe
