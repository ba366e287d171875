import Verif.Spec.CipherMemory
/-!
# The memory of symmetric encryption: lemmas
-/
set_option linter.unusedSimpArgs false
set_option linter.unusedSectionVars false
set_option autoImplicit false
namespace Abe
namespace Evp
open Live (Mut lift)

/-! ### The heap -/

theorem get_alloc (h : Heap) (x : Cell) (i : Nat) :
    get (alloc h x).2 i = if i = h.length then some x else get h i := by
  simp only [alloc, get]
  rw [List.getElem?_append]
  split
  · next hi => rw [if_neg (by omega)]
  · next hi =>
    split
    · next he => subst he; simp
    · next he =>
      rw [List.getElem?_eq_none (by omega : h.length ≤ i), List.getElem?_eq_none (by simp; omega)]

theorem get_len (h : Heap) : get h h.length = none := by simp [get]

theorem get_lt {h : Heap} {a : Nat} {x : Cell} (hx : get h a = some x) : a < h.length := by
  rw [get] at hx
  rcases Nat.lt_or_ge a h.length with hl | hl
  · exact hl
  · rw [List.getElem?_eq_none hl] at hx; cases hx

theorem get_set {h : Heap} {a : Nat} {x : Cell} (hx : get h a = some x) (y : Option Cell) (i : Nat) :
    get (h.set a y) i = if i = a then y else get h i := by
  rw [get, List.getElem?_set]
  split
  · next he =>
    subst he
    rw [if_pos rfl, if_pos (get_lt hx)]; rfl
  · next he => rw [if_neg (Ne.symm he), get]

theorem free_some {h : Heap} {a : Nat} {x : Cell} (hx : get h a = some x) : free h a = .ok (h.set a none) := by
  rw [free, hx]

theorem put_some {h : Heap} {a : Nat} {x : Cell} (hx : get h a = some x) (y : Cell) :
    put h a y = .ok (h.set a (some y)) := by
  rw [put, hx]

theorem live_cons (x : Option Cell) (h : Heap) : live (x :: h) = x.toList ++ live h := by
  cases x <;> simp [live]

theorem live_none : ∀ {h : Heap}, (∀ i, get h i = none) → live h = []
  | [], _ => rfl
  | x :: h, hn => by
    have h0 := hn 0
    simp only [get, List.getElem?_cons_zero, Option.join_some] at h0
    subst h0
    rw [live_cons, live_none (h := h) fun i => by have := hn (i + 1); simpa [get] using this]
    rfl

theorem live_ext : ∀ {h h' : Heap}, (∀ i, get h' i = get h i) → live h' = live h
  | [], h', hx => live_none fun i => by rw [hx]; simp [get]
  | x :: h, [], hx => (live_none fun i => by rw [← hx]; simp [get]).symm
  | x :: h, y :: h', hx => by
    have h0 := hx 0
    simp only [get, List.getElem?_cons_zero, Option.join_some] at h0
    subst h0
    rw [live_cons, live_cons, live_ext (h := h) (h' := h') fun i => by have := hx (i + 1); simpa [get] using this]

theorem live_set : ∀ {h : Heap} {a : Nat} {x : Cell}, get h a = some x →
    (live h).length = (live (h.set a none)).length + 1
  | [], a, x, hx => by simp [get] at hx
  | y :: h, 0, x, hx => by
    simp only [get, List.getElem?_cons_zero, Option.join_some] at hx
    subst hx
    simp [live_cons]
  | y :: h, a + 1, x, hx => by
    have := live_set (h := h) (a := a) (x := x) (by simpa [get] using hx)
    rw [List.set_cons_succ, live_cons, live_cons, List.length_append, List.length_append, this]
    omega

/-- A heap that has some more cells. -/
theorem live_more : ∀ (own : List Nat) (h h' : Heap), own.Nodup → (∀ i, i ∉ own → get h' i = get h i) →
    (∀ i ∈ own, get h i = none) → (∀ i ∈ own, get h' i ≠ none) → (live h').length = (live h).length + own.length
  | [], h, h', _, hk, _, _ => by rw [live_ext fun i => hk i (by simp)]; rfl
  | a :: own, h, h', hn, hk, hf, hl => by
    have ha : ∃ x, get h' a = some x := Option.ne_none_iff_exists'.mp (hl a (by simp))
    obtain ⟨x, hx⟩ := ha
    rw [List.nodup_cons] at hn
    have := live_more own h (h'.set a none) hn.2 (fun i hi => by
        rw [get_set hx]
        split
        · next he => subst he; exact (hf i (by simp)).symm
        · next he => exact hk i (by simp [he, hi])) (fun i hi => hf i (by simp [hi])) fun i hi => by
        rw [get_set hx, if_neg (by rintro rfl; exact hn.1 hi)]
        exact hl i (by simp [hi])
    rw [live_set hx, this, List.length_cons]; omega

/-! ### What a call does to the heap -/

/-- From `h`, where an object has the cells `own`, to `h'`, where it has the cells `own'`. -/
structure Moves (h : Heap) (own : List Nat) (h' : Heap) (own' : List Nat) : Prop where
  keep : ∀ i, i ∉ own → i ∉ own' → get h' i = get h i
  gone : ∀ i ∈ own, i ∉ own' → get h' i = none
  fresh : ∀ i ∈ own', i ∉ own → get h i = none

theorem Moves.refl (h : Heap) (own : List Nat) : Moves h own h own :=
  ⟨fun _ _ _ => rfl, fun _ h1 h2 => absurd h1 h2, fun _ h1 h2 => absurd h1 h2⟩

theorem Moves.trans {h h1 h2 : Heap} {o o1 o2 : List Nat} (a : Moves h o h1 o1) (b : Moves h1 o1 h2 o2) :
    Moves h o h2 o2 := by
  refine ⟨fun i hi hi2 => ?_, fun i hi hi2 => ?_, fun i hi2 hi => ?_⟩
  · by_cases h1 : i ∈ o1
    · rw [b.gone i h1 hi2, a.fresh i h1 hi]
    · rw [b.keep i h1 hi2, a.keep i hi h1]
  · by_cases h1 : i ∈ o1
    · exact b.gone i h1 hi2
    · rw [b.keep i h1 hi2, a.gone i hi h1]
  · by_cases h1 : i ∈ o1
    · exact a.fresh i h1 hi
    · rw [← a.keep i hi h1]; exact b.fresh i hi2 h1

/-- Cells of others stay. -/
theorem Moves.other {h h' : Heap} {own own' : List Nat} (m : Moves h own h' own') {i : Nat} (hi : i ∉ own)
    (hl : get h i ≠ none) : i ∉ own' ∧ get h' i = get h i := by
  have h1 : i ∉ own' := fun hc => hl (m.fresh i hc hi)
  exact ⟨h1, m.keep i hi h1⟩

/-- With the cells of another object beside it. -/
theorem Moves.frame {h h' : Heap} {own own' : List Nat} (m : Moves h own h' own') (r : List Nat) :
    Moves h (own ++ r) h' (own' ++ r) :=
  ⟨fun i h1 h2 => m.keep i (fun h => h1 (by simp [h])) (fun h => h2 (by simp [h])),
   fun i h1 h2 => by
    rw [List.mem_append, not_or] at h2
    rcases List.mem_append.mp h1 with h1 | h1
    · exact m.gone i h1 h2.1
    · exact absurd h1 h2.2,
   fun i h1 h2 => by
    rw [List.mem_append, not_or] at h2
    rcases List.mem_append.mp h1 with h1 | h1
    · exact m.fresh i h1 h2.1
    · exact absurd h1 h2.2⟩

theorem Moves.perm {h h' : Heap} {o o' p p' : List Nat} (m : Moves h o h' o') (ho : ∀ i, i ∈ o ↔ i ∈ p)
    (ho' : ∀ i, i ∈ o' ↔ i ∈ p') : Moves h p h' p' :=
  ⟨fun i h1 h2 => m.keep i (by rwa [ho]) (by rwa [ho']), fun i h1 h2 => m.gone i (by rwa [ho]) (by rwa [ho']),
   fun i h1 h2 => m.fresh i (by rwa [ho']) (by rwa [ho])⟩

theorem moves_alloc (h : Heap) (x : Cell) (r : List Nat) : Moves h r (alloc h x).2 ((alloc h x).1 :: r) := by
  refine ⟨fun i h1 h2 => ?_, fun i h1 h2 => absurd (List.mem_cons_of_mem _ h1) h2, fun i h1 h2 => ?_⟩
  · rw [get_alloc, if_neg (fun he => h2 (by simp [he, alloc]))]
  · rcases List.mem_cons.mp h1 with rfl | h1
    · exact get_len h
    · exact absurd h1 h2

theorem moves_set {h : Heap} {a : Nat} {x : Cell} (hx : get h a = some x) (y : Cell) {r : List Nat} (ha : a ∈ r) :
    Moves h r (h.set a (some y)) r :=
  ⟨fun i h1 _ => by rw [get_set hx, if_neg (by rintro rfl; exact h1 ha)], fun _ h1 h2 => absurd h1 h2,
   fun _ h1 h2 => absurd h1 h2⟩

theorem moves_free {h : Heap} {a : Nat} {x : Cell} (hx : get h a = some x) {r r' : List Nat} (ha : a ∈ r) (ha' : a ∉ r')
    (hs : ∀ i, i ≠ a → (i ∈ r ↔ i ∈ r')) : Moves h r (h.set a none) r' := by
  refine ⟨fun i h1 h2 => ?_, fun i h1 h2 => ?_, fun i h1 h2 => ?_⟩
  · rw [get_set hx, if_neg (by rintro rfl; exact h1 ha)]
  · by_cases he : i = a
    · rw [he, get_set hx, if_pos rfl]
    · exact absurd ((hs i he).mp h1) h2
  · by_cases he : i = a
    · subst he; exact absurd h1 ha'
    · exact absurd ((hs i he).mpr h1) h2

/-! ### Stream objects -/

/-- The object for a value and a pointer. -/
def ofV (v : Stream) (p : Option Nat) : PStream :=
  ⟨v.key, v.aad, v.aadSet, v.encSet, v.decSet, v.total, v.encCount, v.decCount, p⟩

/-- The pointer points to the context, and there is none unless something was started. -/
structure At (h : Heap) (p : Option Nat) (v : Stream) : Prop where
  none_iff : p = none ↔ v.ctx = none
  points : ∀ a c, p = some a → v.ctx = some c → get h a = some (.ctx (some c))
  idle : v.encSet = false → v.decSet = false → v.ctx = none

/-- The same result, with pointers. -/
def Sim (h : Heap) (p : Option Nat) : Res (Step Stream) → Res (Step PStream × Heap) → Prop
  | .ok t, r => ∃ p' h', r = .ok (⟨t.sig, t.out, ofV t.st p'⟩, h') ∧ At h' p' t.st ∧ Moves h p.toList h' p'.toList
  | .throw e, r => r = .throw e
  | .ub, r => r = .ub
  | .abort, r => r = .abort

theorem At.cases {h : Heap} {p : Option Nat} {v : Stream} (H : At h p v) :
    (p = none ∧ v.ctx = none) ∨ ∃ a c, p = some a ∧ v.ctx = some c ∧ get h a = some (.ctx (some c)) := by
  cases p with
  | none => exact .inl ⟨rfl, H.none_iff.mp rfl⟩
  | some a =>
    cases hc : v.ctx with
    | none => exact absurd (H.none_iff.mpr hc) (by simp)
    | some c => exact .inr ⟨a, c, rfl, rfl, H.points a c rfl hc⟩

theorem at_some {h : Heap} {a : Nat} {v : Stream} {c : GcmCtx} (hc : v.ctx = some c)
    (hg : get h a = some (.ctx (some c))) (hi : v.encSet = true ∨ v.decSet = true) : At h (some a) v := by
  refine ⟨⟨(by rintro ⟨⟩), fun hn => by rw [hc] at hn; cases hn⟩, ?_, ?_⟩
  · rintro _ _ ⟨⟩ hc'
    rw [hc] at hc'; cases hc'; exact hg
  · intro h1 h2
    rcases hi with hi | hi
    · rw [h1] at hi; cases hi
    · rw [h2] at hi; cases hi

theorem at_none {h : Heap} {v : Stream} (hc : v.ctx = none) : At h none v :=
  ⟨⟨fun _ => hc, fun _ => rfl⟩, (by rintro _ _ ⟨⟩), fun _ _ => hc⟩

theorem sim_same {h : Heap} {p : Option Nat} {v : Stream} (H : At h p v) (sig : Sig) (out : Bytes) :
    Sim h p (.ok ⟨sig, out, v⟩) (.ok (⟨sig, out, ofV v p⟩, h)) :=
  ⟨p, h, rfl, H, Moves.refl _ _⟩

/-- A new context. -/
theorem putCtx_new (h : Heap) (x : Cell) (c : GcmCtx) :
    ∃ h', putCtx (alloc h x).2 (some (alloc h x).1) c = .ok h' ∧ get h' (alloc h x).1 = some (.ctx (some c)) ∧
      Moves h [] h' [(alloc h x).1] := by
  have hx : get (alloc h x).2 (alloc h x).1 = some x := by rw [get_alloc]; exact if_pos rfl
  refine ⟨_, put_some hx _, by rw [get_set hx, if_pos rfl], ?_⟩
  exact (moves_alloc h x []).trans (moves_set hx _ (by simp))

theorem initAad_ofV (v : Stream) (p : Option Nat) (a : Option Bytes) : (ofV v p).initAad a = ofV (v.initAad a) p := by
  unfold PStream.initAad Stream.initAad
  by_cases hc : (v.encSet || v.decSet) = true
  · rw [if_pos hc, if_pos (show ((ofV v p).encSet || (ofV v p).decSet) = true from hc)]
    cases a <;> rfl
  · rw [if_neg hc, if_neg (show ¬ ((ofV v p).encSet || (ofV v p).decSet) = true from hc)]

theorem at_initAad {h : Heap} {p : Option Nat} {v : Stream} (H : At h p v) (a : Option Bytes) : At h p (v.initAad a) := by
  unfold Stream.initAad
  split
  · cases a <;> exact ⟨H.none_iff, H.points, H.idle⟩
  · exact H

theorem sim_setAad {h : Heap} {p : Option Nat} {v : Stream} (H : At h p v) :
    Sim h p v.setAad (PStream.setAad h (ofV v p)) := by
  unfold Stream.setAad PStream.setAad
  show Sim h p _ (if ((v.encSet || v.decSet) && v.aadSet) = true then _ else _)
  split
  · next hc =>
    have hi : v.encSet = true ∨ v.decSet = true := by
      simp only [Bool.and_eq_true, Bool.or_eq_true] at hc; exact hc.1
    rcases H.cases with ⟨hp, hv⟩ | ⟨a, c, hp, hv, hg⟩
    · rw [hv]; subst hp; rfl
    · rw [hv]
      subst hp
      simp only [ofV, loadCtx, hg, putCtx, put_some hg, Res.ok_bind]
      split
      · next he =>
        exact ⟨some a, _, if_pos he, at_some (c := (c.updAad v.aad).2) rfl (by rw [get_set hg, if_pos rfl]) hi,
          moves_set hg _ (by simp)⟩
      · next he =>
        exact ⟨some a, _, if_neg he, at_some (c := (c.updAad v.aad).2) rfl (by rw [get_set hg, if_pos rfl]) hi,
          moves_set hg _ (by simp)⟩
  · exact sim_same H _ _

theorem sim_encInit {h : Heap} {p : Option Nat} {v : Stream} (H : At h p v) (iv : Bytes) :
    Sim h p (v.encInit iv) (PStream.encInit h (ofV v p) iv) := by
  unfold Stream.encInit PStream.encInit
  show Sim h p _ (if v.encSet = true then _ else if v.decSet = true then _ else _)
  split
  · exact sim_same H _ _
  · next h1 =>
    split
    · exact sim_same H _ _
    · next h2 =>
      have hn := H.idle (by simpa using h1) (by simpa using h2)
      have hp := H.none_iff.mpr hn
      subst hp
      show Sim h none _ (GcmCtx.init v.key iv >>= _)
      cases GcmCtx.init v.key iv with
      | throw e => rfl
      | ub => rfl
      | abort => rfl
      | ok c =>
        obtain ⟨h', e1, e2, e3⟩ := putCtx_new h (.ctx none) c
        simp only [Res.ok_bind, e1]
        exact ⟨_, _, rfl, at_some rfl e2 (.inl rfl), e3⟩

theorem sim_decInit {h : Heap} {p : Option Nat} {v : Stream} (H : At h p v) (iv tag : Bytes) :
    Sim h p (v.decInit iv tag) (PStream.decInit h (ofV v p) iv tag) := by
  unfold Stream.decInit PStream.decInit
  show Sim h p _ (if v.decSet = true then _ else if v.encSet = true then _ else _)
  split
  · exact sim_same H _ _
  · next h1 =>
    split
    · exact sim_same H _ _
    · next h2 =>
      have hn := H.idle (by simpa using h2) (by simpa using h1)
      have hp := H.none_iff.mpr hn
      subst hp
      show Sim h none _ (GcmCtx.init v.key iv >>= _)
      cases GcmCtx.init v.key iv with
      | throw e => rfl
      | ub => rfl
      | abort => rfl
      | ok c =>
        obtain ⟨h', e1, e2, e3⟩ := putCtx_new h (.ctx none) (c.setTag tag)
        simp only [Res.ok_bind, e1]
        exact ⟨_, _, rfl, at_some rfl e2 (.inr rfl), e3⟩

theorem sim_encUpdate (g : Gcm) {h : Heap} {p : Option Nat} {v : Stream} (H : At h p v) (pt : Bytes) :
    Sim h p (v.encUpdate g pt) (PStream.encUpdate g h (ofV v p) pt) := by
  unfold Stream.encUpdate PStream.encUpdate
  show Sim h p _ (if v.encSet = true then _ else _)
  split
  · next hs =>
    split
    · exact sim_same H _ _
    · rcases H.cases with ⟨hp, hv⟩ | ⟨a, c, hp, hv, hg⟩
      · rw [hv]; subst hp; rfl
      · rw [hv]
        subst hp
        simp only [ofV, loadCtx, hg, putCtx, put_some hg, Res.ok_bind]
        split
        · exact ⟨some a, _, rfl, at_some (c := (c.updEnc g pt).2) rfl (by rw [get_set hg, if_pos rfl]) (.inl hs),
            moves_set hg _ (by simp)⟩
        · exact ⟨some a, _, rfl, at_some (c := (c.updEnc g pt).2) rfl (by rw [get_set hg, if_pos rfl]) (.inl hs),
            moves_set hg _ (by simp)⟩
  · exact sim_same H _ _

theorem sim_decUpdate (g : Gcm) {h : Heap} {p : Option Nat} {v : Stream} (H : At h p v) (ct : Bytes) :
    Sim h p (v.decUpdate g ct) (PStream.decUpdate g h (ofV v p) ct) := by
  unfold Stream.decUpdate PStream.decUpdate
  show Sim h p _ (if v.decSet = true then _ else _)
  split
  · next hs =>
    split
    · exact sim_same H _ _
    · rcases H.cases with ⟨hp, hv⟩ | ⟨a, c, hp, hv, hg⟩
      · rw [hv]; subst hp; rfl
      · rw [hv]
        subst hp
        simp only [ofV, loadCtx, hg, putCtx, put_some hg, Res.ok_bind]
        split
        · exact ⟨some a, _, rfl, at_some (c := (c.updDec g ct).2) rfl (by rw [get_set hg, if_pos rfl]) (.inr hs),
            moves_set hg _ (by simp)⟩
        · exact ⟨some a, _, rfl, at_some (c := (c.updDec g ct).2) rfl (by rw [get_set hg, if_pos rfl]) (.inr hs),
            moves_set hg _ (by simp)⟩
  · exact sim_same H _ _

theorem sim_encFinalize (g : Gcm) {h : Heap} {p : Option Nat} {v : Stream} (H : At h p v) (n : Nat) :
    Sim h p (v.encFinalize g n) (PStream.encFinalize g h (ofV v p) n) := by
  unfold Stream.encFinalize PStream.encFinalize
  show Sim h p _ (if (v.encSet && decide (0 < v.encCount)) = true then if n ≠ v.total then _ else _ else _)
  split
  · next hs =>
    simp only [Bool.and_eq_true] at hs
    split
    · exact sim_same H _ _
    · rcases H.cases with ⟨hp, hv⟩ | ⟨a, c, hp, hv, hg⟩
      · rw [hv]; subst hp; rfl
      · rw [hv]
        subst hp
        have hg' : get (h.set a (some (.ctx (some { c with done := true })))) a =
            some (.ctx (some { c with done := true })) := by rw [get_set hg, if_pos rfl]
        have e1 : loadCtx h (ofV v (some a)).ctx = .ok c := by simp only [ofV, loadCtx, hg]
        have e2 : putCtx h (ofV v (some a)).ctx { c with done := true } =
            .ok (h.set a (some (.ctx (some { c with done := true })))) := put_some hg _
        have e3 : freeCtx (h.set a (some (.ctx (some { c with done := true })))) (ofV v (some a)).ctx =
            .ok ((h.set a (some (.ctx (some { c with done := true })))).set a none) := free_some hg'
        rw [e1, Res.ok_bind, e2, Res.ok_bind]
        have key : ∀ tot : Nat, Sim h (some a)
            (if tot ≠ 0 then
              .ok ⟨.exc .unexpectedExtraBytes, [], { v with ctx := some { c with done := true }, total := tot }⟩
            else .ok ⟨.ret none, c.getTag g, { v with
              ctx := none, total := 0, encCount := 0, encSet := false, aadSet := false,
              aad := BS.fillBuffer 0 v.aad.length }⟩)
            (if tot ≠ 0 then .ok (⟨.exc .unexpectedExtraBytes, [], { ofV v (some a) with total := tot }⟩,
                h.set a (some (.ctx (some { c with done := true }))))
            else freeCtx (h.set a (some (.ctx (some { c with done := true })))) (ofV v (some a)).ctx >>= fun h =>
              .ok (⟨.ret none, c.getTag g, { ofV v (some a) with
                ctx := none, total := 0, encCount := 0, encSet := false, aadSet := false,
                aad := BS.fillBuffer 0 v.aad.length }⟩, h)) := by
          intro tot
          split
          · exact ⟨some a, _, rfl, at_some (c := { c with done := true }) rfl hg' (.inl hs.1),
              moves_set hg _ (by simp)⟩
          · rw [e3, Res.ok_bind]
            refine ⟨none, _, rfl, at_none rfl, (moves_set hg _ (by simp)).trans
              (moves_free hg' (by simp) (by simp) ?_)⟩
            intro i hi; simp [hi, Ne.symm hi]
        exact key _
  · exact sim_same H _ _

theorem sim_decFinalize (g : Gcm) {h : Heap} {p : Option Nat} {v : Stream} (H : At h p v) :
    Sim h p (v.decFinalize g) (PStream.decFinalize g h (ofV v p)) := by
  unfold Stream.decFinalize PStream.decFinalize
  show Sim h p _ (if (v.decSet && decide (0 < v.decCount)) = true then _ else _)
  split
  · rcases H.cases with ⟨hp, hv⟩ | ⟨a, c, hp, hv, hg⟩
    · rw [hv]; subst hp; rfl
    · rw [hv]
      subst hp
      simp only [ofV, loadCtx, hg, freeCtx, free_some hg, Res.ok_bind]
      split
      · refine ⟨none, _, rfl, at_none rfl, moves_free hg (by simp) (by simp) ?_⟩
        intro i hi; simp [hi, Ne.symm hi]
      · refine ⟨none, _, rfl, at_none rfl, moves_free hg (by simp) (by simp) ?_⟩
        intro i hi; simp [hi, Ne.symm hi]
  · exact sim_same H _ _

theorem sim_call (g : Gcm) {h : Heap} {p : Option Nat} {v : Stream} (H : At h p v) (x : Stream.Call) :
    Sim h p (v.call g x) (PStream.call g h (ofV v p) x) := by
  cases x with
  | initAad a =>
    show Sim h p (.ok ⟨.ret none, [], v.initAad a⟩) (.ok (⟨.ret none, [], (ofV v p).initAad a⟩, h))
    rw [initAad_ofV]
    exact sim_same (at_initAad H a) _ _
  | setAad => exact sim_setAad H
  | encInit iv => exact sim_encInit H iv
  | encUpdate pt => exact sim_encUpdate g H pt
  | encFinalize n => exact sim_encFinalize g H n
  | decInit iv tag => exact sim_decInit H iv tag
  | decUpdate ct => exact sim_decUpdate g H ct
  | decFinalize => exact sim_decFinalize g H

/-- The same results for whole histories. -/
def SimRun (h : Heap) (p : Option Nat) : Res (List (Sig × Bytes) × Stream) →
    Res (List (Sig × Bytes) × PStream × Heap) → Prop
  | .ok t, r => ∃ p' h', r = .ok (t.1, ofV t.2 p', h') ∧ At h' p' t.2 ∧ Moves h p.toList h' p'.toList
  | .throw e, r => r = .throw e
  | .ub, r => r = .ub
  | .abort, r => r = .abort

theorem sim_run (g : Gcm) : ∀ (xs : List Stream.Call) {h : Heap} {p : Option Nat} {v : Stream}, At h p v →
    SimRun h p (Values.stream g v xs) (PStream.run g h (ofV v p) xs)
  | [], h, p, v, H => ⟨p, h, rfl, H, Moves.refl _ _⟩
  | x :: xs, h, p, v, H => by
    have h1 := sim_call g H x
    rw [Values.stream, PStream.run]
    cases hc : v.call g x with
    | throw e => rw [hc] at h1; simp only [Sim] at h1; rw [h1]; rfl
    | ub => rw [hc] at h1; simp only [Sim] at h1; rw [h1]; rfl
    | abort => rw [hc] at h1; simp only [Sim] at h1; rw [h1]; rfl
    | ok t =>
      rw [hc] at h1
      obtain ⟨p1, h1', e1, e2, e3⟩ := h1
      rw [e1]
      simp only [Res.ok_bind]
      have h2 := sim_run g xs e2
      cases hr : Values.stream g t.st xs with
      | throw e => rw [hr] at h2; simp only [SimRun] at h2; rw [h2]; rfl
      | ub => rw [hr] at h2; simp only [SimRun] at h2; rw [h2]; rfl
      | abort => rw [hr] at h2; simp only [SimRun] at h2; rw [h2]; rfl
      | ok u =>
        rw [hr] at h2
        obtain ⟨p2, h2', f1, f2, f3⟩ := h2
        rw [f1]
        exact ⟨p2, h2', rfl, f2, e3.trans f3⟩

/-- The destructor. -/
theorem sim_destroy {h : Heap} {p : Option Nat} {v : Stream} (H : At h p v) :
    ∃ h', (ofV v p).destroy h = .ok h' ∧ Moves h p.toList h' [] := by
  rcases H.cases with ⟨hp, hv⟩ | ⟨a, c, hp, hv, hg⟩
  · subst hp
    exact ⟨h, rfl, Moves.refl _ _⟩
  · subst hp
    refine ⟨_, by rw [PStream.destroy]; exact free_some hg, moves_free hg (by simp) (by simp) ?_⟩
    intro i hi; simp [hi, Ne.symm hi]

theorem at_cells {h : Heap} {p : Option Nat} {v : Stream} (H : At h p v) :
    p.toList.length = inStream v ∧ ∀ i ∈ p.toList, get h i ≠ none := by
  rcases H.cases with ⟨hp, hv⟩ | ⟨a, c, hp, hv, hg⟩
  · subst hp; simp [inStream, hv]
  · subst hp; simp [inStream, hv, hg]

/-! ### The stream context -/

/-- A pointer to a stream object with the cells behind it, or none. -/
def Held (h : Heap) : Option Nat → Option Stream → List Nat → Prop
  | none, none, own => own = []
  | some a, some v, own => ∃ p, get h a = some (.stream (ofV v p)) ∧ At h p v ∧ own = a :: p.toList
  | _, _, _ => False

theorem At.mono {h h' : Heap} {p : Option Nat} {v : Stream} (H : At h p v) (he : ∀ i ∈ p.toList, get h' i = get h i) :
    At h' p v :=
  ⟨H.none_iff, fun a c hp hv => by rw [he a (by simp [hp])]; exact H.points a c hp hv, H.idle⟩

theorem Held.mono {h h' : Heap} {q : Option Nat} {v : Option Stream} {own : List Nat} (H : Held h q v own)
    (he : ∀ i ∈ own, get h' i = get h i) : Held h' q v own := by
  cases q with
  | none =>
    cases v with
    | none => exact H
    | some v => exact H
  | some a =>
    cases v with
    | none => exact H
    | some v =>
      obtain ⟨p, h1, h2, rfl⟩ := H
      exact ⟨p, by rw [he a (by simp)]; exact h1, h2.mono fun i hi => he i (by simp [hi]), rfl⟩

theorem at_ne {h : Heap} {p : Option Nat} {v w : Stream} {q : Option Nat} {a : Nat} (H : At h p v)
    (ha : get h a = some (.stream (ofV w q))) : a ∉ p.toList := by
  intro hc
  rcases H.cases with ⟨hp, hv⟩ | ⟨b, c, hp, hv, hg⟩
  · subst hp; simp at hc
  · subst hp
    simp only [Option.toList_some, List.mem_singleton] at hc
    subst hc
    rw [hg] at ha; cases ha

theorem Held.alive {h : Heap} {q : Option Nat} {v : Option Stream} {own : List Nat} (H : Held h q v own) :
    own.Nodup ∧ (∀ i ∈ own, get h i ≠ none) ∧
      own.length = inPtr v := by
  cases q with
  | none =>
    cases v with
    | none => cases H; simp [inPtr]
    | some v => exact H.elim
  | some a =>
    cases v with
    | none => exact H.elim
    | some v =>
      obtain ⟨p, h1, h2, rfl⟩ := H
      obtain ⟨c1, c2⟩ := at_cells h2
      refine ⟨List.nodup_cons.mpr ⟨at_ne h2 h1, by cases p <;> simp⟩, ?_, by simp only [List.length_cons, c1, inPtr]; omega⟩
      intro i hi
      rcases List.mem_cons.mp hi with rfl | hi
      · rw [h1]; simp
      · exact c2 i hi

theorem held_del {h : Heap} {q : Option Nat} {v : Option Stream} {own : List Nat} (H : Held h q v own) :
    ∃ h', delStream h q = .ok h' ∧ Moves h own h' [] := by
  cases q with
  | none =>
    cases v with
    | none => cases H; exact ⟨h, rfl, Moves.refl _ _⟩
    | some v => exact H.elim
  | some a =>
    cases v with
    | none => exact H.elim
    | some v =>
      obtain ⟨p, h1, h2, rfl⟩ := H
      obtain ⟨h', e1, e2⟩ := sim_destroy h2
      have hn := at_ne h2 h1
      have ha : get h' a = some (.stream (ofV v p)) := by
        rw [(e2.other hn (by rw [h1]; simp)).2, h1]
      refine ⟨h'.set a none, by rw [delStream, loadStream, h1]; simp only [Res.ok_bind, e1, free_some ha], ?_⟩
      have m := e2.frame [a]
      refine (m.perm (p := a :: p.toList) (p' := [a]) (by simp [or_comm]) (by simp)).trans
        (moves_free ha (by simp) (by simp) ?_)
      intro i hi; simp [hi]

/-- The same result of a method called through a pointer. -/
def SimAt (h : Heap) (a : Nat) (own : List Nat) : Res (Step Stream) → Res ((Sig × Bytes) × Heap) → Prop
  | .ok t, r => ∃ own' h', r = .ok ((t.sig, t.out), h') ∧ Held h' (some a) (some t.st) own' ∧ Moves h own h' own'
  | .throw e, r => r = .throw e
  | .ub, r => r = .ub
  | .abort, r => r = .abort

theorem held_on {h : Heap} {a : Nat} {v : Stream} {own : List Nat} (H : Held h (some a) (some v) own)
    (r : Res (Step Stream)) (f : Heap → PStream → Res (Step PStream × Heap))
    (hf : ∀ p, At h p v → Sim h p r (f h (ofV v p))) : SimAt h a own r (onStream h a f) := by
  obtain ⟨p, h1, h2, rfl⟩ := H
  have hs := hf p h2
  have hn := at_ne h2 h1
  rw [onStream, loadStream, h1]
  simp only [Res.ok_bind]
  cases r with
  | throw e => simp only [Sim] at hs; rw [hs]; rfl
  | ub => simp only [Sim] at hs; rw [hs]; rfl
  | abort => simp only [Sim] at hs; rw [hs]; rfl
  | ok t =>
    obtain ⟨p', h', e1, e2, e3⟩ := hs
    obtain ⟨n', g'⟩ := e3.other hn (by rw [h1]; simp)
    rw [h1] at g'
    rw [e1]
    simp only [Res.ok_bind, put_some g']
    refine ⟨a :: p'.toList, _, rfl, ⟨p', by rw [get_set g', if_pos rfl], ?_, rfl⟩, ?_⟩
    · refine e2.mono fun i hi => ?_
      rw [get_set g', if_neg (by rintro rfl; exact n' hi)]
    · have m := e3.frame [a]
      exact (m.perm (p := a :: p.toList) (p' := a :: p'.toList) (by simp [or_comm]) (by simp [or_comm])).trans
        (moves_set g' _ (by simp))

/-- The context with pointers goes with the one with values; `own` are its cells. -/
structure Joint (h : Heap) (c : PCtx) (v : StreamCtx) (o1 o2 : List Nat) : Prop where
  keys : c.keys = v.keys
  enc : Held h c.enc v.enc o1
  dec : Held h c.dec v.dec o2
  apart : ∀ i ∈ o1, i ∉ o2

/-- The same result of a call. -/
def SimC (h : Heap) (own : List Nat) : Res ((Option Err × Bytes) × StreamCtx) → PCtx.Out → Prop
  | .ok t, r => ∃ c' h' o1 o2, r = .ok (t.1, c', h') ∧ Joint h' c' t.2 o1 o2 ∧ Moves h own h' (o1 ++ o2)
  | .throw e, r => r = .throw e
  | .ub, r => r = .ub
  | .abort, r => r = .abort

theorem joint_enc {h h' : Heap} {c : PCtx} {v : StreamCtx} {o1 o2 o1' : List Nat} (J : Joint h c v o1 o2)
    (m : Moves h o1 h' o1') (c' : PCtx) (v' : StreamCtx) (hk : c'.keys = v'.keys) (he : Held h' c'.enc v'.enc o1')
    (hd : c'.dec = c.dec) (hd' : v'.dec = v.dec) : Joint h' c' v' o1' o2 ∧ Moves h (o1 ++ o2) h' (o1' ++ o2) := by
  have ho : ∀ i ∈ o2, i ∉ o1' ∧ get h' i = get h i := fun i hi =>
    m.other (fun h1 => J.apart i h1 hi) (J.dec.alive.2.1 i hi)
  refine ⟨⟨hk, he, ?_, fun i h1 h2 => (ho i h2).1 h1⟩, m.frame o2⟩
  rw [hd, hd']
  exact J.dec.mono fun i hi => (ho i hi).2

theorem joint_dec {h h' : Heap} {c : PCtx} {v : StreamCtx} {o1 o2 o2' : List Nat} (J : Joint h c v o1 o2)
    (m : Moves h o2 h' o2') (c' : PCtx) (v' : StreamCtx) (hk : c'.keys = v'.keys) (he : Held h' c'.dec v'.dec o2')
    (hd : c'.enc = c.enc) (hd' : v'.enc = v.enc) : Joint h' c' v' o1 o2' ∧ Moves h (o1 ++ o2) h' (o1 ++ o2') := by
  have ho : ∀ i ∈ o1, i ∉ o2' ∧ get h' i = get h i := fun i hi =>
    m.other (fun h2 => J.apart i hi h2) (J.enc.alive.2.1 i hi)
  refine ⟨⟨hk, ?_, he, fun i h1 h2 => (ho i h1).1 h2⟩, ?_⟩
  · rw [hd, hd']
    exact J.enc.mono fun i hi => (ho i hi).2
  · exact (m.frame o1).perm (by simp [or_comm]) (by simp [or_comm])

/-- The case that only the cells of the encryption change. -/
theorem simC_enc {h h' : Heap} {c : PCtx} {v : StreamCtx} {o1 o2 o1' : List Nat} (J : Joint h c v o1 o2)
    (m : Moves h o1 h' o1') (c' : PCtx) (v' : StreamCtx) (x : Option Err × Bytes) (hk : c'.keys = v'.keys)
    (he : Held h' c'.enc v'.enc o1') (hd : c'.dec = c.dec) (hd' : v'.dec = v.dec) :
    SimC h (o1 ++ o2) (.ok (x, v')) (.ok (x, c', h')) := by
  obtain ⟨h1, h2⟩ := joint_enc J m c' v' hk he hd hd'
  exact ⟨c', h', o1', o2, rfl, h1, h2⟩

theorem simC_dec {h h' : Heap} {c : PCtx} {v : StreamCtx} {o1 o2 o2' : List Nat} (J : Joint h c v o1 o2)
    (m : Moves h o2 h' o2') (c' : PCtx) (v' : StreamCtx) (x : Option Err × Bytes) (hk : c'.keys = v'.keys)
    (he : Held h' c'.dec v'.dec o2') (hd : c'.enc = c.enc) (hd' : v'.enc = v.enc) :
    SimC h (o1 ++ o2) (.ok (x, v')) (.ok (x, c', h')) := by
  obtain ⟨h1, h2⟩ := joint_dec J m c' v' hk he hd hd'
  exact ⟨c', h', o1, o2', rfl, h1, h2⟩

/-- Only keys change. -/
theorem simC_keys {h : Heap} {c : PCtx} {v : StreamCtx} {o1 o2 : List Nat} (J : Joint h c v o1 o2)
    (ks : KeyStore SymKey) (x : Option Err × Bytes) :
    SimC h (o1 ++ o2) (.ok (x, { v with keys := ks })) (.ok (x, { c with keys := ks }, h)) :=
  ⟨_, h, o1, o2, rfl, ⟨rfl, J.enc, J.dec, J.apart⟩, Moves.refl _ _⟩

theorem held_new (h : Heap) (k : Bytes) :
    Held (alloc h (.stream { key := k })).2 (some (alloc h (.stream { key := k })).1) (some { key := k })
      [(alloc h (.stream { key := k })).1] :=
  ⟨none, by rw [get_alloc]; exact if_pos rfl, at_none rfl, rfl⟩

/-- Default authentication data, through a pointer. -/
theorem sim_defaultAad {h : Heap} {a : Nat} {v : Stream} {own : List Nat} (H : Held h (some a) (some v) own) :
    match StreamCtx.defaultAad v with
    | .ok t => ∃ own' h', PCtx.defaultAad h a = .ok (t.1, h') ∧ Held h' (some a) (some t.2) own' ∧ Moves h own h' own'
    | .throw e => PCtx.defaultAad h a = .throw e
    | .ub => PCtx.defaultAad h a = .ub
    | .abort => PCtx.defaultAad h a = .abort := by
  have hs := held_on H (v.initAad none).setAad (fun h s => PStream.setAad h (s.initAad none)) fun p hp => by
    show Sim h p _ (PStream.setAad h ((ofV v p).initAad none))
    rw [initAad_ofV]
    have := sim_setAad (at_initAad hp none)
    exact this
  rw [StreamCtx.defaultAad, PCtx.defaultAad]
  cases hr : (v.initAad none).setAad with
  | throw e => rw [hr] at hs; simp only [SimAt] at hs; rw [hs]; rfl
  | ub => rw [hr] at hs; simp only [SimAt] at hs; rw [hs]; rfl
  | abort => rw [hr] at hs; simp only [SimAt] at hs; rw [hs]; rfl
  | ok t =>
    rw [hr] at hs
    obtain ⟨own', h', e1, e2, e3⟩ := hs
    rw [e1]
    obtain ⟨sig, out, st⟩ := t
    cases sig with
    | ret e => exact ⟨own', h', rfl, e2, e3⟩
    | exc e => exact ⟨own', h', rfl, e2, e3⟩

theorem simC_encInit {h : Heap} {c : PCtx} {v : StreamCtx} {o1 o2 : List Nat} (J : Joint h c v o1 o2) (g : Gcm)
    (id iv : Bytes) : SimC h (o1 ++ o2) (Values.call g v (.encInit id iv)) (PCtx.encInit h c id iv) := by
  obtain ⟨h1, e1, m1⟩ := held_del J.enc
  simp only [Values.call, StreamCtx.encInit, PCtx.encInit, e1, Res.ok_bind, J.keys]
  cases hk : (v.keys.getSecretKey id).1 with
  | none =>
    exact simC_enc J m1 { c with keys := (v.keys.getSecretKey id).2, enc := none }
      { v with keys := (v.keys.getSecretKey id).2, enc := none } _ rfl rfl rfl rfl
  | some k =>
    simp only [Res.ok_bind]
    have m2 := m1.trans (moves_alloc h1 (.stream { key := k.data }) [])
    have hs := held_on (held_new h1 k.data) (({ key := k.data } : Stream).encInit iv)
      (fun h s => PStream.encInit h s iv) fun p hp => sim_encInit hp iv
    cases hr : ({ key := k.data } : Stream).encInit iv with
    | throw e => rw [hr] at hs; simp only [SimAt] at hs; rw [hs]; rfl
    | ub => rw [hr] at hs; simp only [SimAt] at hs; rw [hs]; rfl
    | abort => rw [hr] at hs; simp only [SimAt] at hs; rw [hs]; rfl
    | ok t =>
      rw [hr] at hs
      obtain ⟨own', h', f1, f2, f3⟩ := hs
      rw [f1]
      simp only [Res.ok_bind]
      obtain ⟨sig, out, st⟩ := t
      have other : ∀ e : Option Err, SimC h (o1 ++ o2)
          (.ok ((e, out), { v with keys := (v.keys.getSecretKey id).2, enc := some st }))
          (.ok ((e, out), { c with keys := (v.keys.getSecretKey id).2,
                                   enc := some (alloc h1 (.stream { key := k.data })).1 }, h')) := fun e =>
        simC_enc J (m2.trans f3) _ _ _ rfl f2 rfl rfl
      cases sig with
      | exc e => exact other (some e)
      | ret e =>
        cases e with
        | some e => exact other (some e)
        | none =>
          have hd := sim_defaultAad f2
          cases hu : StreamCtx.defaultAad st with
          | throw e => rw [hu] at hd; simp only at hd; simp only [hd, hu]; rfl
          | ub => rw [hu] at hd; simp only at hd; simp only [hd, hu]; rfl
          | abort => rw [hu] at hd; simp only at hd; simp only [hd, hu]; rfl
          | ok u =>
            rw [hu] at hd
            obtain ⟨own2, h2, d1, d2, d3⟩ := hd
            simp only [d1, hu, Res.ok_bind]
            exact simC_enc J ((m2.trans f3).trans d3) _ _ _ rfl d2 rfl rfl

theorem simC_decInit {h : Heap} {c : PCtx} {v : StreamCtx} {o1 o2 : List Nat} (J : Joint h c v o1 o2) (g : Gcm)
    (id iv tag : Bytes) :
    SimC h (o1 ++ o2) (Values.call g v (.decInit id iv tag)) (PCtx.decInit h c id iv tag) := by
  obtain ⟨h1, e1, m1⟩ := held_del J.dec
  simp only [Values.call, StreamCtx.decInit, PCtx.decInit, e1, Res.ok_bind, J.keys]
  cases hk : (v.keys.getSecretKey id).1 with
  | none =>
    exact simC_dec J m1 { c with keys := (v.keys.getSecretKey id).2, dec := none }
      { v with keys := (v.keys.getSecretKey id).2, dec := none } _ rfl rfl rfl rfl
  | some k =>
    simp only [Res.ok_bind]
    have m2 := m1.trans (moves_alloc h1 (.stream { key := k.data }) [])
    have hs := held_on (held_new h1 k.data) (({ key := k.data } : Stream).decInit iv tag)
      (fun h s => PStream.decInit h s iv tag) fun p hp => sim_decInit hp iv tag
    cases hr : ({ key := k.data } : Stream).decInit iv tag with
    | throw e => rw [hr] at hs; simp only [SimAt] at hs; rw [hs]; rfl
    | ub => rw [hr] at hs; simp only [SimAt] at hs; rw [hs]; rfl
    | abort => rw [hr] at hs; simp only [SimAt] at hs; rw [hs]; rfl
    | ok t =>
      rw [hr] at hs
      obtain ⟨own', h', f1, f2, f3⟩ := hs
      rw [f1]
      simp only [Res.ok_bind]
      obtain ⟨sig, out, st⟩ := t
      cases sig with
      | exc e => exact simC_dec J (m2.trans f3) _ _ _ rfl f2 rfl rfl
      | ret e =>
        have hd := sim_defaultAad f2
        cases hu : StreamCtx.defaultAad st with
        | throw e => rw [hu] at hd; simp only at hd; simp only [hd, hu]; rfl
        | ub => rw [hu] at hd; simp only at hd; simp only [hd, hu]; rfl
        | abort => rw [hu] at hd; simp only at hd; simp only [hd, hu]; rfl
        | ok u =>
          rw [hu] at hd
          obtain ⟨own2, h2, d1, d2, d3⟩ := hd
          simp only [d1, hu, Res.ok_bind]
          exact simC_dec J ((m2.trans f3).trans d3) _ _ _ rfl d2 rfl rfl

theorem held_cases {h : Heap} {q : Option Nat} {v : Option Stream} {own : List Nat} (H : Held h q v own) :
    (q = none ∧ v = none) ∨ ∃ a s, q = some a ∧ v = some s := by
  cases q with
  | none =>
    cases v with
    | none => exact .inl ⟨rfl, rfl⟩
    | some v => exact H.elim
  | some a =>
    cases v with
    | none => exact H.elim
    | some v => exact .inr ⟨a, v, rfl, rfl⟩

theorem joint_eta {c : PCtx} {v : StreamCtx} (hk : c.keys = v.keys) : c = { c with keys := v.keys } := by
  rw [← hk]

theorem simC_same {h : Heap} {c : PCtx} {v : StreamCtx} {o1 o2 : List Nat} (J : Joint h c v o1 o2)
    (x : Option Err × Bytes) : SimC h (o1 ++ o2) (.ok (x, v)) (.ok (x, c, h)) :=
  ⟨c, h, o1, o2, rfl, J, Moves.refl _ _⟩

theorem simC_encUpdate {h : Heap} {c : PCtx} {v : StreamCtx} {o1 o2 : List Nat} (J : Joint h c v o1 o2) (g : Gcm)
    (pt : Bytes) : SimC h (o1 ++ o2) (Values.call g v (.encUpdate pt)) (PCtx.encUpdate g h c pt) := by
  rw [Values.call, StreamCtx.encUpdate, PCtx.encUpdate]
  rcases held_cases J.enc with ⟨hq, hv⟩ | ⟨a, s, hq, hv⟩
  · rw [hq, hv]; exact simC_same J _
  · rw [hq, hv]
    have H := J.enc
    rw [hq, hv] at H
    have hs := held_on H (s.encUpdate g pt) (fun h s => PStream.encUpdate g h s pt) fun p hp => sim_encUpdate g hp pt
    dsimp only
    cases hr : s.encUpdate g pt with
    | throw e => rw [hr] at hs; simp only [SimAt] at hs; rw [hs]; rfl
    | ub => rw [hr] at hs; simp only [SimAt] at hs; rw [hs]; rfl
    | abort => rw [hr] at hs; simp only [SimAt] at hs; rw [hs]; rfl
    | ok t =>
      rw [hr] at hs
      obtain ⟨own', h', f1, f2, f3⟩ := hs
      rw [f1]
      obtain ⟨sig, out, st⟩ := t
      cases sig with
      | ret e => exact simC_enc J f3 c { v with enc := some st } _ J.keys (by rw [hq]; exact f2) rfl rfl
      | exc e => exact simC_enc J f3 c { v with enc := some st } _ J.keys (by rw [hq]; exact f2) rfl rfl

theorem simC_decUpdate {h : Heap} {c : PCtx} {v : StreamCtx} {o1 o2 : List Nat} (J : Joint h c v o1 o2) (g : Gcm)
    (ct : Bytes) : SimC h (o1 ++ o2) (Values.call g v (.decUpdate ct)) (PCtx.decUpdate g h c ct) := by
  rw [Values.call, StreamCtx.decUpdate, PCtx.decUpdate]
  rcases held_cases J.dec with ⟨hq, hv⟩ | ⟨a, s, hq, hv⟩
  · rw [hq, hv]; exact simC_same J _
  · rw [hq, hv]
    have H := J.dec
    rw [hq, hv] at H
    have hs := held_on H (s.decUpdate g ct) (fun h s => PStream.decUpdate g h s ct) fun p hp => sim_decUpdate g hp ct
    dsimp only
    cases hr : s.decUpdate g ct with
    | throw e => rw [hr] at hs; simp only [SimAt] at hs; rw [hs]; rfl
    | ub => rw [hr] at hs; simp only [SimAt] at hs; rw [hs]; rfl
    | abort => rw [hr] at hs; simp only [SimAt] at hs; rw [hs]; rfl
    | ok t =>
      rw [hr] at hs
      obtain ⟨own', h', f1, f2, f3⟩ := hs
      rw [f1]
      obtain ⟨sig, out, st⟩ := t
      cases sig with
      | ret e => exact simC_dec J f3 c { v with dec := some st } _ J.keys (by rw [hq]; exact f2) rfl rfl
      | exc e => exact simC_dec J f3 c { v with dec := some st } _ J.keys (by rw [hq]; exact f2) rfl rfl

theorem simC_encFinalize {h : Heap} {c : PCtx} {v : StreamCtx} {o1 o2 : List Nat} (J : Joint h c v o1 o2) (g : Gcm)
    (n : Nat) : SimC h (o1 ++ o2) (Values.call g v (.encFinalize n)) (PCtx.encFinalize g h c n) := by
  rw [Values.call, StreamCtx.encFinalize, PCtx.encFinalize]
  rcases held_cases J.enc with ⟨hq, hv⟩ | ⟨a, s, hq, hv⟩
  · rw [hq, hv]; exact simC_same J _
  · rw [hq, hv]
    have H := J.enc
    rw [hq, hv] at H
    have hs := held_on H (s.encFinalize g n) (fun h s => PStream.encFinalize g h s n) fun p hp => sim_encFinalize g hp n
    dsimp only
    cases hr : s.encFinalize g n with
    | throw e => rw [hr] at hs; simp only [SimAt] at hs; rw [hs]; rfl
    | ub => rw [hr] at hs; simp only [SimAt] at hs; rw [hs]; rfl
    | abort => rw [hr] at hs; simp only [SimAt] at hs; rw [hs]; rfl
    | ok t =>
      rw [hr] at hs
      obtain ⟨own', h', f1, f2, f3⟩ := hs
      rw [f1]
      obtain ⟨sig, out, st⟩ := t
      cases sig with
      | ret e =>
        obtain ⟨h2, d1, d2⟩ := held_del f2
        simp only [Res.ok_bind, d1]
        exact simC_enc J (f3.trans d2) { c with enc := none } { v with enc := none } _ J.keys rfl rfl rfl
      | exc e => exact simC_enc J f3 c { v with enc := some st } _ J.keys (by rw [hq]; exact f2) rfl rfl

theorem simC_decFinalize {h : Heap} {c : PCtx} {v : StreamCtx} {o1 o2 : List Nat} (J : Joint h c v o1 o2) (g : Gcm) :
    SimC h (o1 ++ o2) (Values.call g v .decFinalize) (PCtx.decFinalize g h c) := by
  rw [Values.call, StreamCtx.decFinalize, PCtx.decFinalize]
  rcases held_cases J.dec with ⟨hq, hv⟩ | ⟨a, s, hq, hv⟩
  · rw [hq, hv]; exact simC_same J _
  · rw [hq, hv]
    have H := J.dec
    rw [hq, hv] at H
    have hs := held_on H (s.decFinalize g) (fun h s => PStream.decFinalize g h s) fun p hp => sim_decFinalize g hp
    dsimp only
    cases hr : s.decFinalize g with
    | throw e => rw [hr] at hs; simp only [SimAt] at hs; rw [hs]; rfl
    | ub => rw [hr] at hs; simp only [SimAt] at hs; rw [hs]; rfl
    | abort => rw [hr] at hs; simp only [SimAt] at hs; rw [hs]; rfl
    | ok t =>
      rw [hr] at hs
      obtain ⟨own', h', f1, f2, f3⟩ := hs
      rw [f1]
      obtain ⟨sig, out, st⟩ := t
      cases sig with
      | ret e =>
        obtain ⟨h2, d1, d2⟩ := held_del f2
        simp only [Res.ok_bind, d1]
        exact simC_dec J (f3.trans d2) { c with dec := none } { v with dec := none } _ J.keys rfl rfl rfl
      | exc e => exact simC_dec J f3 c { v with dec := some st } _ J.keys (by rw [hq]; exact f2) rfl rfl

theorem keygen_keys (v : StreamCtx) (id rnd : Bytes) :
    v.keygen id rnd = (StreamCtx.keygen { keys := v.keys } id rnd >>= fun r => .ok (r.1, { v with keys := r.2.keys })) := by
  rw [StreamCtx.keygen, StreamCtx.keygen]
  dsimp only
  split
  · rfl
  · cases ({} : SymKey).generate rnd <;> rfl

theorem load_keys (v : StreamCtx) (id blob rnd : Bytes) :
    v.loadPrivateKey id blob rnd =
      (StreamCtx.loadPrivateKey { keys := v.keys } id blob rnd >>= fun r => .ok (r.1, { v with keys := r.2.keys })) := by
  rw [StreamCtx.loadPrivateKey, StreamCtx.loadPrivateKey]
  cases hl : ({} : SymKey).load blob rnd with
  | ok r => rfl
  | ub => rfl
  | abort => rfl
  | throw e => cases e <;> rfl

theorem simC_call (g : Gcm) {h : Heap} {c : PCtx} {v : StreamCtx} {o1 o2 : List Nat} (J : Joint h c v o1 o2)
    (x : StreamCtx.Call) : SimC h (o1 ++ o2) (Values.call g v x) (PCtx.call g h c x) := by
  cases x with
  | keygen id rnd =>
    rw [Values.call, PCtx.call, keygen_keys, J.keys]
    cases StreamCtx.keygen { keys := v.keys } id rnd with
    | throw e => rfl
    | ub => rfl
    | abort => rfl
    | ok r => exact simC_keys J r.2.keys (r.1, [])
  | exportKey id =>
    rw [Values.call, PCtx.call, J.keys]
    have h1 : v.exportKey id = ((StreamCtx.exportKey { keys := v.keys } id).1,
        (StreamCtx.exportKey { keys := v.keys } id).2.1,
        { v with keys := (StreamCtx.exportKey { keys := v.keys } id).2.2.keys }) := by
      rw [StreamCtx.exportKey, StreamCtx.exportKey]
      dsimp only
      cases (v.keys.getKey id).1 <;> rfl
    rw [h1]
    exact simC_keys J _ _
  | load id blob rnd =>
    rw [Values.call, PCtx.call, load_keys, J.keys]
    cases StreamCtx.loadPrivateKey { keys := v.keys } id blob rnd with
    | throw e => exact simC_same J _
    | ub => rfl
    | abort => rfl
    | ok r => exact simC_keys J r.2.keys (r.1, [])
  | delete id =>
    rw [Values.call, PCtx.call, J.keys]
    exact simC_keys J (v.keys.deleteKey id).2 _
  | encInit id iv => exact simC_encInit J g id iv
  | encUpdate pt => exact simC_encUpdate J g pt
  | encFinalize n => exact simC_encFinalize J g n
  | decInit id iv tag => exact simC_decInit J g id iv tag
  | decUpdate ct => exact simC_decUpdate J g ct
  | decFinalize => exact simC_decFinalize J g

/-- The same results for whole histories. -/
def SimCRun (h : Heap) (own : List Nat) : Res (List (Option Err × Bytes) × StreamCtx) →
    Res (List (Option Err × Bytes) × PCtx × Heap) → Prop
  | .ok t, r => ∃ c' h' o1 o2, r = .ok (t.1, c', h') ∧ Joint h' c' t.2 o1 o2 ∧ Moves h own h' (o1 ++ o2)
  | .throw e, r => r = .throw e
  | .ub, r => r = .ub
  | .abort, r => r = .abort

theorem simC_run (g : Gcm) : ∀ (xs : List StreamCtx.Call) {h : Heap} {c : PCtx} {v : StreamCtx} {o1 o2 : List Nat},
    Joint h c v o1 o2 → SimCRun h (o1 ++ o2) (Values.context g v xs) (PCtx.run g h c xs)
  | [], h, c, v, o1, o2, J => ⟨c, h, o1, o2, rfl, J, Moves.refl _ _⟩
  | x :: xs, h, c, v, o1, o2, J => by
    have h1 := simC_call g J x
    rw [Values.context, PCtx.run]
    cases hc : Values.call g v x with
    | throw e => rw [hc] at h1; simp only [SimC] at h1; rw [h1]; rfl
    | ub => rw [hc] at h1; simp only [SimC] at h1; rw [h1]; rfl
    | abort => rw [hc] at h1; simp only [SimC] at h1; rw [h1]; rfl
    | ok t =>
      rw [hc] at h1
      obtain ⟨c1, h1', p1, p2, e1, e2, e3⟩ := h1
      rw [e1]
      simp only [Res.ok_bind]
      have h2 := simC_run g xs e2
      cases hr : Values.context g t.2 xs with
      | throw e => rw [hr] at h2; simp only [SimCRun] at h2; rw [h2]; rfl
      | ub => rw [hr] at h2; simp only [SimCRun] at h2; rw [h2]; rfl
      | abort => rw [hr] at h2; simp only [SimCRun] at h2; rw [h2]; rfl
      | ok u =>
        rw [hr] at h2
        obtain ⟨c2, h2', q1, q2, f1, f2, f3⟩ := h2
        rw [f1]
        exact ⟨c2, h2', q1, q2, rfl, f2, e3.trans f3⟩

theorem joint_destroy {h : Heap} {c : PCtx} {v : StreamCtx} {o1 o2 : List Nat} (J : Joint h c v o1 o2) :
    ∃ h', c.destroy h = .ok h' ∧ Moves h (o1 ++ o2) h' [] := by
  obtain ⟨h1, e1, m1⟩ := held_del J.enc
  obtain ⟨J1, m⟩ := joint_enc J m1 { c with enc := none } { v with enc := none } J.keys rfl rfl rfl
  obtain ⟨h2, e2, m2⟩ := held_del J1.dec
  exact ⟨h2, by rw [PCtx.destroy, e1, Res.ok_bind]; exact e2, m.trans m2⟩

theorem joint_cells {h : Heap} {c : PCtx} {v : StreamCtx} {o1 o2 : List Nat} (J : Joint h c v o1 o2) :
    (o1 ++ o2).Nodup ∧ (∀ i ∈ o1 ++ o2, get h i ≠ none) ∧ (o1 ++ o2).length = inContext v := by
  obtain ⟨a1, a2, a3⟩ := J.enc.alive
  obtain ⟨b1, b2, b3⟩ := J.dec.alive
  refine ⟨List.nodup_append'.mpr ⟨a1, b1, fun i h1 h2 => J.apart i h1 h2⟩, ?_, ?_⟩
  · intro i hi
    rcases List.mem_append.mp hi with hi | hi
    · exact a2 i hi
    · exact b2 i hi
  · rw [List.length_append, a3, b3]; rfl

/-! ### Whole messages -/

theorem live_append (h h' : Heap) : live (h ++ h') = live h ++ live h' := by simp [live, List.filterMap_append]

theorem get_new (h h' : Heap) (i : Nat) : get (h ++ h') (h.length + i) = get h' i := by
  rw [get, List.getElem?_append_right (by omega), get, Nat.add_sub_cancel_left]

theorem set_new (h h' : Heap) (i : Nat) (x : Option Cell) : (h ++ h').set (h.length + i) x = h ++ h'.set i x := by
  rw [List.set_append_right _ _ (by omega), Nat.add_sub_cancel_left]

theorem mut_ok {α β : Type} {m : Mut Heap α} {h h' : Heap} {a : α} (f : α → Mut Heap β) (hm : m h = (.ok a, h')) :
    (m >>= f) h = f a h' := by
  show Mut.bind m f h = _
  rw [Mut.bind, hm]

theorem new_step {β : Type} (x : Cell) (f : Nat → Mut Heap β) (h : Heap) :
    (newM x >>= f) h = f h.length (h ++ [some x]) := rfl

theorem lift_step {α β : Type} (a : α) (f : α → Mut Heap β) (h : Heap) : (lift (.ok a) >>= f) h = f a h := rfl

theorem put_at {β : Type} (h h' : Heap) (i : Nat) (x : Cell) (hx : get h' i = some x) (c : GcmCtx)
    (f : Unit → Mut Heap β) :
    ((onHeap fun H => putCtx H (some (h.length + i)) c) >>= f) (h ++ h') =
      f () (h ++ h'.set i (some (.ctx (some c)))) := by
  have hg : get (h ++ h') (h.length + i) = some x := by rw [get_new]; exact hx
  refine mut_ok _ ?_
  simp only [onHeap, putCtx]
  rw [put_some hg, set_new]

theorem free_at {β : Type} (h h' : Heap) (i : Nat) (x : Cell) (hx : get h' i = some x) (f : Unit → Mut Heap β) :
    ((onHeap fun H => free H (h.length + i)) >>= f) (h ++ h') = f () (h ++ h'.set i none) := by
  have hg : get (h ++ h') (h.length + i) = some x := by rw [get_new]; exact hx
  refine mut_ok _ ?_
  simp only [onHeap]
  rw [free_some hg, set_new]

/-- `encrypt` on the heap: two cells that were in use. -/
theorem encrypt_heap (g : Gcm) (a : AuthEnc) (iv pt : Bytes) (h : Heap) :
    (encrypt g a iv pt h).1 = a.encrypt g iv pt ∧
      (a.encrypt g iv pt ≠ .ub → (encrypt g a iv pt h).2 = h ++ [none, none]) := by
  rw [AuthEnc.encrypt, encrypt, new_step, new_step]
  rw [GcmCtx.init]
  split
  · exact ⟨rfl, fun hc => absurd rfl hc⟩
  · rw [lift_step, List.append_assoc, List.length_append]
    simp only [List.cons_append, List.nil_append, List.length_cons, List.length_nil, Res.ok_bind]
    erw [put_at h _ 0 _ rfl, put_at h _ 0 _ rfl, free_at h _ 0 _ rfl, free_at h _ 1 _ rfl]
    exact ⟨rfl, fun _ => rfl⟩

/-- `decrypt` on the heap: two cells that were in use, or the context that stays. -/
theorem decrypt_heap (g : Gcm) (a : AuthEnc) (iv ct tag : Bytes) (h : Heap) :
    (decrypt g a iv ct tag h).1 = a.decrypt g iv ct tag ∧
      (a.decrypt g iv ct tag ≠ .ub → (decrypt g a iv ct tag h).2 =
        h ++ (if tag.length = 16 then [none, none] else [some (.ctx none)])) := by
  rw [AuthEnc.decrypt, decrypt, new_step]
  by_cases ht : tag.length = aesBlock
  · rw [if_neg (by simp [ht]), if_neg (by simp [ht])]
    rw [GcmCtx.init]
    split
    · exact ⟨rfl, fun hc => absurd rfl hc⟩
    · rw [lift_step]
      simp only [Res.ok_bind]
      erw [put_at h _ 0 _ rfl, new_step]
      rw [List.append_assoc, List.length_append]
      erw [put_at h _ 0 _ rfl, free_at h _ 1 _ rfl, free_at h _ 0 _ rfl]
      rw [if_pos (show tag.length = 16 from ht)]
      exact ⟨rfl, fun _ => rfl⟩
  · rw [if_pos ht, if_pos ht, if_neg (show ¬ tag.length = 16 from ht)]
    exact ⟨rfl, fun _ => rfl⟩

theorem handle_enc (g : Gcm) (k : SymHandle) (iv pt : Bytes) (h : Heap) :
    (handleEncrypt g k iv pt h).1 = k.encrypt g iv pt ∧
      (k.encrypt g iv pt ≠ .ub → live (handleEncrypt g k iv pt h).2 = live h) := by
  obtain ⟨h1, h2⟩ := encrypt_heap g k.cipher iv pt h
  rw [SymHandle.encrypt, handleEncrypt, asRuntimeM]
  show asRuntime (Mut.bind _ _ h).1 = _ ∧ (_ → live (Mut.bind _ _ h).2 = _)
  rw [Mut.bind]
  cases hr : encrypt g k.cipher iv pt h with
  | mk r h' =>
    rw [hr] at h1 h2
    dsimp only at h1 h2
    subst h1
    have hl : k.cipher.encrypt g iv pt ≠ .ub → live h' = live h := fun hn => by
      rw [h2 hn, live_append]; simp [live]
    cases he : k.cipher.encrypt g iv pt with
    | throw e => rw [he] at hl; exact ⟨rfl, fun _ => hl (by simp)⟩
    | ub => exact ⟨rfl, fun hc => absurd rfl hc⟩
    | abort => rw [he] at hl; exact ⟨rfl, fun _ => hl (by simp)⟩
    | ok r => rw [he] at hl; exact ⟨rfl, fun _ => hl (by simp)⟩

theorem decrypt_fields (g : Gcm) (k : SymHandle) (z : Bytes) :
    k.decrypt g z = asRuntime (handleFields k z >>= fun f => k.cipher.decrypt g f.1 f.2.1 f.2.2 >>= fun r => plainOf r) := by
  rw [SymHandle.decrypt, handleFields]
  dsimp only
  generalize (if k.b64 = true then B64.decode z else z) = w
  cases BS.smartUnpack w 0 with
  | throw e => rfl
  | ub => rfl
  | abort => rfl
  | ok x =>
    simp only [Res.ok_bind]
    cases BS.smartUnpack w x.2 with
    | throw e => rfl
    | ub => rfl
    | abort => rfl
    | ok y =>
      simp only [Res.ok_bind]
      cases BS.smartUnpack w y.2 with
      | throw e => rfl
      | ub => rfl
      | abort => rfl
      | ok t =>
        simp only [Res.ok_bind]
        cases k.cipher.decrypt g x.1 y.1 t.1 with
        | throw e => rfl
        | ub => rfl
        | abort => rfl
        | ok r => cases r <;> rfl

theorem handle_dec (g : Gcm) (k : SymHandle) (z : Bytes) (h : Heap) :
    (handleDecrypt g k z h).1 = k.decrypt g z ∧
      (k.decrypt g z ≠ .ub → live (handleDecrypt g k z h).2 =
        live h ++ (if badTag k (.dec z) then [.ctx none] else [])) := by
  rw [decrypt_fields, handleDecrypt, asRuntimeM, badTag]
  show asRuntime (Mut.bind _ _ h).1 = _ ∧ (_ → live (Mut.bind _ _ h).2 = _)
  rw [Mut.bind, lift]
  cases handleFields k z with
  | throw e => exact ⟨rfl, fun _ => by simp⟩
  | ub => exact ⟨rfl, fun hc => absurd rfl hc⟩
  | abort => exact ⟨rfl, fun _ => by simp⟩
  | ok f =>
    obtain ⟨iv, ct, tag⟩ := f
    obtain ⟨h1, h2⟩ := decrypt_heap g k.cipher iv ct tag h
    show asRuntime (Mut.bind _ _ h).1 = _ ∧ (_ → live (Mut.bind _ _ h).2 = _)
    rw [Mut.bind]
    simp only [Res.ok_bind]
    cases hr : decrypt g k.cipher iv ct tag h with
    | mk r h' =>
      rw [hr] at h1 h2
      dsimp only at h1 h2
      subst h1
      have hl : k.cipher.decrypt g iv ct tag ≠ .ub →
          live h' = live h ++ (if (tag.length != 16) = true then [.ctx none] else []) := fun hn => by
        rw [h2 hn, live_append]
        by_cases ht : tag.length = 16
        · simp [ht, live]
        · simp [ht, live]
      cases he : k.cipher.decrypt g iv ct tag with
      | throw e => rw [he] at hl; exact ⟨rfl, fun _ => hl (by simp)⟩
      | ub => exact ⟨rfl, fun hc => absurd rfl hc⟩
      | abort => rw [he] at hl; exact ⟨rfl, fun _ => hl (by simp)⟩
      | ok r => rw [he] at hl; exact ⟨rfl, fun _ => hl (by simp)⟩

theorem handle_uses (g : Gcm) (k : SymHandle) : ∀ (us : List Use) (h : Heap), (∀ u ∈ us, Values.use g k u ≠ .ub) →
    (handleUses g k us h).1 = us.map (Values.use g k) ∧
      live (handleUses g k us h).2 = live h ++ List.replicate (us.countP (badTag k)) (.ctx none)
  | [], h, _ => ⟨rfl, by simp [handleUses]⟩
  | u :: us, h, hu => by
    have h1 : (handleUse g k u h).1 = Values.use g k u ∧
        live (handleUse g k u h).2 = live h ++ (if badTag k u then [.ctx none] else []) := by
      have hn := hu u (by simp)
      cases u with
      | enc iv pt =>
        obtain ⟨a, b⟩ := handle_enc g k iv pt h
        exact ⟨a, by rw [handleUse, b hn]; simp [badTag]⟩
      | dec z =>
        obtain ⟨a, b⟩ := handle_dec g k z h
        exact ⟨a, b hn⟩
    obtain ⟨h2, h3⟩ := handle_uses g k us (handleUse g k u h).2 fun v hv => hu v (by simp [hv])
    refine ⟨by simp only [handleUses, h1.1, h2, List.map_cons], ?_⟩
    simp only [handleUses]
    rw [h3, h1.2, List.countP_cons, List.append_assoc]
    by_cases hb : badTag k u = true
    · simp [hb, List.replicate_succ]
    · simp [hb]

end Evp
end Abe
