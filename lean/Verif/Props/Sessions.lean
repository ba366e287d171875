import Verif.Spec.Sessions
import Verif.Props.Stream
/-!
# Exactly what stream objects answer: C151

The specification is `Verif.Spec.Sessions`.
-/
set_option linter.unusedSimpArgs false
set_option linter.unusedSectionVars false
set_option autoImplicit false
namespace Abe
namespace Session

/-- What a sequence of calls on an object answers. -/
def observed (g : Gcm) : Stream → List Stream.Call → Res (List (Sig × Bytes))
  | _, [] => .ok []
  | s, c :: cs => do
    let t ← Stream.call g s c
    let l ← observed g t.st cs
    .ok ((t.sig, t.out) :: l)

/-- An undefined answer is an undefined outcome. -/
def toRes {α : Type} : Option α → Res α
  | none => .ub
  | some a => .ok a

/-- The cipher context of a session. -/
def cipherOf (key iv fed ct : Bytes) (tag : Option Bytes) (done : Bool) : GcmCtx :=
  { key := key.take 32, iv := iv, aad := fed, ct := ct, tag := tag, done := done }

/-- The state of the object goes with the session. -/
def Goes (g : Gcm) (key : Bytes) : Session → Stream → Prop
  | .idle l, s => s.key = key ∧ s.encSet = false ∧ s.decSet = false ∧ s.ctx = none ∧ s.aadSet = false ∧
      s.aad = List.replicate l 0
  | .enc iv a data, s => s.key = key ∧ s.encSet = true ∧ s.decSet = false ∧ s.aad = a.pending ∧ s.aadSet = a.any ∧
      s.total = data.flatten.length ∧ s.encCount = data.length ∧ (∀ m ∈ data, m ≠ []) ∧
      s.ctx = some (cipherOf key iv a.fed (g.crypt (key.take 32) iv 0 data.flatten) none false)
  | .dec iv tag a data, s => s.key = key ∧ s.encSet = false ∧ s.decSet = true ∧ s.aad = a.pending ∧ s.aadSet = a.any ∧
      s.decCount = data.length ∧ (∀ m ∈ data, m ≠ []) ∧
      s.ctx = some (cipherOf key iv a.fed data.flatten
        (if 1 ≤ tag.length ∧ tag.length ≤ 16 then some tag else none) false)
  | .stuck a n, s => s.key = key ∧ s.encSet = true ∧ s.decSet = false ∧ s.aad = a.pending ∧ s.aadSet = a.any ∧
      s.total = n ∧ n ≠ 0 ∧ n / 2 ^ 32 * 2 ^ 32 = n ∧ 0 < s.encCount ∧ ∃ c, s.ctx = some c ∧ c.done = true

theorem flatten_nil_iff {data : List Bytes} (h : ∀ m ∈ data, m ≠ []) : data.flatten = [] ↔ data = [] := by
  constructor
  · intro hf
    cases data with
    | nil => rfl
    | cons m ms =>
      rw [List.flatten_cons] at hf
      exact absurd (List.append_eq_nil_iff.mp hf).1 (h m (by simp))
  · rintro rfl; rfl

/-- A call of an object in a session answers what the session says and leaves the object in the next session. -/
def Step1 (g : Gcm) (key : Bytes) (p : Session) (s : Stream) (c : Stream.Call) : Prop :=
  match p.answer g key c with
  | none => Stream.call g s c = .ub
  | some a => ∃ s', Stream.call g s c = .ok ⟨a.1, a.2, s'⟩ ∧ Goes g key (p.next c) s'

theorem mem_snoc_ne {data : List Bytes} {m : Bytes} (h : ∀ x ∈ data, x ≠ []) (hm : m ≠ []) :
    ∀ x ∈ data ++ [m], x ≠ [] := by
  intro x hx
  rcases List.mem_append.mp hx with h' | h'
  · exact h x h'
  · rw [List.mem_singleton.mp h']; exact hm

theorem len_zero {m : Bytes} (hm : m ≠ []) : ¬ m.length = 0 := fun h => hm (List.length_eq_zero_iff.mp h)

theorem drop_crypt (g : Gcm) (key iv : Bytes) (data : List Bytes) (m : Bytes) :
    (g.crypt key iv 0 (data ++ [m]).flatten).drop data.flatten.length = g.crypt key iv data.flatten.length m := by
  rw [List.flatten_append, List.flatten_cons, List.flatten_nil, List.append_nil, g.crypt_append,
    List.drop_append_of_le_length (Nat.le_of_eq (g.crypt_length _ _ _ _).symm), List.drop_of_length_le (Nat.le_of_eq (g.crypt_length _ _ _ _)),
    List.nil_append, Nat.zero_add]

theorem crypt_snoc (g : Gcm) (key iv : Bytes) (data : List Bytes) (m : Bytes) :
    g.crypt key iv 0 (data ++ [m]).flatten =
      g.crypt key iv 0 data.flatten ++ g.crypt key iv data.flatten.length m := by
  rw [List.flatten_append, List.flatten_cons, List.flatten_nil, List.append_nil, g.crypt_append, Nat.zero_add]

theorem prefix_take {t m : Bytes} : m.take t.length = t ↔ t <+: m := by
  constructor
  · intro h; rw [← h]; exact List.take_prefix _ _
  · intro h; exact (List.prefix_iff_eq_take.mp h).symm

theorem step_idle (g : Gcm) (key : Bytes) (l : Nat) (s : Stream) (h : Goes g key (.idle l) s) (c : Stream.Call) :
    Step1 g key (.idle l) s c := by
  have h' := h
  obtain ⟨key, aad, aadSet, encSet, decSet, total, ec, dc, ctx⟩ := s
  dsimp only [Goes] at h
  obtain ⟨rfl, rfl, rfl, rfl, rfl, rfl⟩ := h
  cases c with
  | initAad x => exact ⟨_, rfl, h'⟩
  | setAad => exact ⟨_, rfl, h'⟩
  | encUpdate m => exact ⟨_, rfl, h'⟩
  | encFinalize n => exact ⟨_, rfl, h'⟩
  | decUpdate m => exact ⟨_, rfl, h'⟩
  | decFinalize => exact ⟨_, rfl, h'⟩
  | encInit iv =>
    unfold Step1
    simp only [answer, Stream.call, Stream.encInit, Bool.false_eq_true, if_false]
    by_cases hc : key.length < 32 ∨ iv = []
    · rw [if_pos hc, show GcmCtx.init key iv = .ub from if_pos hc]; rfl
    · rw [if_neg hc, show GcmCtx.init key iv = .ok { key := key.take 32, iv := iv } from if_neg hc]
      exact ⟨_, rfl, rfl, rfl, rfl, rfl, rfl, rfl, rfl, (fun _ h => by cases h), rfl⟩
  | decInit iv tag =>
    unfold Step1
    simp only [answer, Stream.call, Stream.decInit, Bool.false_eq_true, if_false]
    by_cases hc : key.length < 32 ∨ iv = []
    · rw [if_pos hc, show GcmCtx.init key iv = .ub from if_pos hc]; rfl
    · rw [if_neg hc, show GcmCtx.init key iv = .ok { key := key.take 32, iv := iv } from if_neg hc]
      refine ⟨_, rfl, rfl, rfl, rfl, rfl, rfl, rfl, (fun _ h => by cases h), ?_⟩
      dsimp only
      rw [GcmCtx.setTag]
      split <;> rfl

theorem updAad_late {c : GcmCtx} (h : c.done = true ∨ c.ct ≠ []) (a : Bytes) : c.updAad a = (0, c) := if_pos h

theorem updAad_early {c : GcmCtx} (h : c.done = false) (h' : c.ct = []) (a : Bytes) :
    c.updAad a = (a.length, { c with aad := c.aad ++ a }) := if_neg (by simp [h, h'])

/-- Passing on associated data when there is data already. -/
theorem late_res (a : Collected) (ha : a.any = true) (p : Prop) [Decidable p] (hp : p) (s : Stream) :
    (if 0 = a.pending.length then (.ok ⟨.ret none, [], s⟩ : Res (Step Stream)) else .ok ⟨.exc .invalidInput, [], s⟩) =
      .ok ⟨passed a p, [], s⟩ := by
  have hf : ¬ a.any = false := by rw [ha]; decide
  by_cases hn : a.pending = []
  · rw [if_pos (show 0 = a.pending.length by rw [hn]; rfl),
      show passed a p = .ret none from (if_neg hf).trans (if_neg (fun h => h.2 hn))]
  · rw [if_neg (Ne.symm (len_zero hn)),
      show passed a p = .exc .invalidInput from (if_neg hf).trans (if_pos ⟨hp, hn⟩)]

theorem high_ne {n : Nat} (h : ¬ n < 2 ^ 32) : n / 2 ^ 32 * 2 ^ 32 ≠ 0 := by omega

theorem high_high (n : Nat) : n / 2 ^ 32 * 2 ^ 32 / 2 ^ 32 * 2 ^ 32 = n / 2 ^ 32 * 2 ^ 32 := by omega

theorem step_enc (g : Gcm) (key iv : Bytes) (a : Collected) (data : List Bytes) (s : Stream)
    (h : Goes g key (.enc iv a data) s) (c : Stream.Call) : Step1 g key (.enc iv a data) s c := by
  have h' := h
  obtain ⟨key, aad, aadSet, encSet, decSet, total, ec, dc, ctx⟩ := s
  dsimp only [Goes] at h
  obtain ⟨rfl, rfl, rfl, rfl, rfl, rfl, rfl, h8, rfl⟩ := h
  cases c with
  | initAad x => cases x <;> exact ⟨_, rfl, rfl, rfl, rfl, rfl, rfl, rfl, rfl, h8, rfl⟩
  | setAad =>
    unfold Step1
    simp only [answer, Stream.call, Stream.setAad, Bool.true_or, Bool.true_and]
    by_cases ha : a.any = true
    · rw [if_pos ha]
      by_cases hd : data = []
      · subst hd
        rw [updAad_early rfl rfl, if_pos rfl]
        rw [show passed a (([] : List Bytes) ≠ []) = .ret none by simp [passed, ha]]
        refine ⟨_, rfl, ?_⟩
        rw [next, pass, if_pos ⟨ha, rfl⟩]
        exact ⟨rfl, rfl, rfl, rfl, rfl, rfl, rfl, h8, rfl⟩
      · have hx : g.crypt (key.take 32) iv 0 data.flatten ≠ [] := by
          rw [ne_eq, g.crypt_eq_nil, flatten_nil_iff h8]; exact hd
        rw [updAad_late (Or.inr hx), late_res a ha (data ≠ []) hd]
        refine ⟨_, rfl, ?_⟩
        rw [next, pass, if_neg (fun h => hd h.2)]
        exact h'
    · rw [if_neg ha]
      have ha' : a.any = false := by simpa using ha
      rw [show passed a (data ≠ []) = .ret (some .invalidInputType) from if_pos ha']
      refine ⟨_, rfl, ?_⟩
      rw [next, pass, if_neg (fun h => ha h.1)]
      exact h'
  | encInit i => exact ⟨_, rfl, h'⟩
  | decInit i t => exact ⟨_, rfl, h'⟩
  | decUpdate m => exact ⟨_, rfl, h'⟩
  | decFinalize => exact ⟨_, rfl, h'⟩
  | encUpdate m =>
    unfold Step1
    simp only [answer, next, Stream.call, Stream.encUpdate, if_true]
    by_cases hm : m = []
    · subst hm; exact ⟨_, rfl, h'⟩
    · rw [if_neg hm, if_neg hm, if_neg (len_zero hm), drop_crypt]
      dsimp only
      rw [Stream.updEnc_live g _ m rfl]
      simp only [cipherOf, g.crypt_length, if_true]
      refine ⟨_, rfl, rfl, rfl, rfl, rfl, rfl, ?_, ?_, mem_snoc_ne h8 hm, ?_⟩
      · simp
      · simp
      · rw [crypt_snoc]; rfl
  | encFinalize n =>
    unfold Step1
    simp only [answer, next, Stream.call, Stream.encFinalize, Bool.true_and]
    by_cases hd : data = []
    · subst hd; exact ⟨_, rfl, h'⟩
    · have hl : 0 < data.length := List.length_pos_iff.mpr hd
      rw [if_neg hd, if_pos (decide_eq_true hl)]
      by_cases hn : n = data.flatten.length
      · have hnn : ¬ n ≠ data.flatten.length := fun h => h hn
        have ho : ¬ (data = [] ∨ n ≠ data.flatten.length) := fun h => h.elim hd hnn
        simp only [if_neg hnn, if_neg ho]
        by_cases hb : n < 2 ^ 32
        · have : ¬ data.flatten.length / 2 ^ 32 * 2 ^ 32 ≠ 0 := by rw [← hn, Nat.div_eq_of_lt hb]; simp
          simp only [if_pos hb, if_neg this]
          exact ⟨_, rfl, rfl, rfl, rfl, rfl, rfl, rfl⟩
        · have : data.flatten.length / 2 ^ 32 * 2 ^ 32 ≠ 0 := by omega
          simp only [if_neg hb, if_pos this]
          have e1 : data.flatten.length / 2 ^ 32 * 2 ^ 32 = n / 2 ^ 32 * 2 ^ 32 := by rw [hn]
          have e2 : n / 2 ^ 32 * 2 ^ 32 ≠ 0 := high_ne hb
          have e3 : n / 2 ^ 32 * 2 ^ 32 / 2 ^ 32 * 2 ^ 32 = n / 2 ^ 32 * 2 ^ 32 := high_high n
          exact ⟨_, rfl, rfl, rfl, rfl, rfl, rfl, e1, e2, e3, hl, _, rfl, rfl⟩
      · have ho : data = [] ∨ n ≠ data.flatten.length := Or.inr hn
        simp only [ne_eq, hn, not_false_eq_true, if_true, or_true]
        exact ⟨_, rfl, h'⟩

theorem step_dec (g : Gcm) (key iv tag : Bytes) (a : Collected) (data : List Bytes) (s : Stream)
    (h : Goes g key (.dec iv tag a data) s) (c : Stream.Call) : Step1 g key (.dec iv tag a data) s c := by
  have h' := h
  obtain ⟨key, aad, aadSet, encSet, decSet, total, ec, dc, ctx⟩ := s
  dsimp only [Goes] at h
  obtain ⟨rfl, rfl, rfl, rfl, rfl, rfl, h8, rfl⟩ := h
  cases c with
  | initAad x => cases x <;> exact ⟨_, rfl, rfl, rfl, rfl, rfl, rfl, rfl, h8, rfl⟩
  | setAad =>
    unfold Step1
    simp only [answer, Stream.call, Stream.setAad, Bool.or_true, Bool.true_and]
    by_cases ha : a.any = true
    · rw [if_pos ha]
      by_cases hd : data = []
      · subst hd
        rw [updAad_early rfl rfl, if_pos rfl]
        rw [show passed a (([] : List Bytes) ≠ []) = .ret none by simp [passed, ha]]
        refine ⟨_, rfl, ?_⟩
        rw [next, pass, if_pos ⟨ha, rfl⟩]
        exact ⟨rfl, rfl, rfl, rfl, rfl, rfl, h8, rfl⟩
      · have hx : data.flatten ≠ [] := by
          rw [ne_eq, flatten_nil_iff h8]; exact hd
        rw [updAad_late (Or.inr hx), late_res a ha (data ≠ []) hd]
        refine ⟨_, rfl, ?_⟩
        rw [next, pass, if_neg (fun h => hd h.2)]
        exact h'
    · rw [if_neg ha]
      have ha' : a.any = false := by simpa using ha
      rw [show passed a (data ≠ []) = .ret (some .invalidInputType) from if_pos ha']
      refine ⟨_, rfl, ?_⟩
      rw [next, pass, if_neg (fun h => ha h.1)]
      exact h'
  | encInit i => exact ⟨_, rfl, h'⟩
  | decInit i t => exact ⟨_, rfl, h'⟩
  | encUpdate m => exact ⟨_, rfl, h'⟩
  | encFinalize n => exact ⟨_, rfl, h'⟩
  | decUpdate m =>
    unfold Step1
    simp only [answer, next, Stream.call, Stream.decUpdate, if_true]
    by_cases hm : m = []
    · subst hm; exact ⟨_, rfl, h'⟩
    · rw [if_neg hm, if_neg hm, if_neg (len_zero hm), drop_crypt]
      dsimp only
      rw [Stream.updDec_live g _ m rfl]
      simp only [cipherOf, g.crypt_length, if_true]
      refine ⟨_, rfl, rfl, rfl, rfl, rfl, rfl, ?_, mem_snoc_ne h8 hm, ?_⟩
      · simp
      · simp [cipherOf]
  | decFinalize =>
    unfold Step1
    simp only [answer, next, Stream.call, Stream.decFinalize, Bool.true_and]
    by_cases hd : data = []
    · subst hd; exact ⟨_, rfl, h'⟩
    · have hl : 0 < data.length := List.length_pos_iff.mpr hd
      rw [if_neg hd, if_pos (decide_eq_true hl), if_neg hd]
      by_cases ht : 1 ≤ tag.length ∧ tag.length ≤ 16
      · have hf : GcmCtx.finDec g (cipherOf key iv a.fed data.flatten (if 1 ≤ tag.length ∧ tag.length ≤ 16 then some tag else none) false) = true ↔
            tag <+: g.mac (key.take 32) iv a.fed data.flatten := by
          rw [if_pos ht]
          simp only [GcmCtx.finDec, cipherOf, GcmCtx.getTag, beq_iff_eq]
          exact prefix_take
        by_cases hp : tag <+: g.mac (key.take 32) iv a.fed data.flatten
        · rw [if_pos ⟨ht.1, ht.2, hp⟩, if_pos (hf.mpr hp)]
          exact ⟨_, rfl, rfl, rfl, rfl, rfl, rfl, rfl⟩
        · rw [if_neg (fun h => hp h.2.2), if_neg (fun h => hp (hf.mp h))]
          exact ⟨_, rfl, rfl, rfl, rfl, rfl, rfl, rfl⟩
      · rw [if_neg (fun h => ht ⟨h.1, h.2.1⟩), if_neg (by rw [if_neg ht]; simp [GcmCtx.finDec, cipherOf])]
        exact ⟨_, rfl, rfl, rfl, rfl, rfl, rfl, rfl⟩

theorem step_stuck (g : Gcm) (key : Bytes) (a : Collected) (k : Nat) (s : Stream)
    (h : Goes g key (.stuck a k) s) (c : Stream.Call) : Step1 g key (.stuck a k) s c := by
  have h' := h
  obtain ⟨key, aad, aadSet, encSet, decSet, total, ec, dc, ctx⟩ := s
  dsimp only [Goes] at h
  obtain ⟨rfl, rfl, rfl, rfl, rfl, rfl, h7, h8, h9, x, rfl, hd⟩ := h
  cases c with
  | initAad x => cases x <;> exact ⟨_, rfl, rfl, rfl, rfl, rfl, rfl, rfl, h7, h8, h9, _, rfl, hd⟩
  | setAad =>
    unfold Step1
    simp only [answer, Stream.call, Stream.setAad, Bool.true_or, Bool.true_and]
    by_cases ha : a.any = true
    · rw [if_pos ha, updAad_late (Or.inl hd), late_res a ha True trivial]
      exact ⟨_, rfl, h'⟩
    · rw [if_neg ha]
      have ha' : a.any = false := by simpa using ha
      rw [show passed a True = .ret (some .invalidInputType) from if_pos ha']
      exact ⟨_, rfl, h'⟩
  | encInit i => exact ⟨_, rfl, h'⟩
  | decInit i t => exact ⟨_, rfl, h'⟩
  | decUpdate m => exact ⟨_, rfl, h'⟩
  | decFinalize => exact ⟨_, rfl, h'⟩
  | encUpdate m =>
    unfold Step1
    simp only [answer, next, Stream.call, Stream.encUpdate, if_true]
    by_cases hm : m = []
    · subst hm; exact ⟨_, rfl, h'⟩
    · rw [if_neg (len_zero hm), Stream.updEnc_done g _ m hd]
      dsimp only
      rw [if_neg (show ¬ m.length = ([] : Bytes).length from len_zero hm)]
      exact ⟨_, rfl, h'⟩
  | encFinalize n =>
    unfold Step1
    simp only [answer, next, Stream.call, Stream.encFinalize, Bool.true_and]
    rw [if_pos (decide_eq_true h9)]
    by_cases hn : n = total
    · subst hn
      rw [if_neg (fun h => h rfl), if_pos rfl, h8, if_pos h7]
      exact ⟨_, rfl, rfl, rfl, rfl, rfl, rfl, rfl, h7, h8, h9, _, rfl, rfl⟩
    · rw [if_pos hn, if_neg hn]
      exact ⟨_, rfl, h'⟩

theorem step_any (g : Gcm) (key : Bytes) (p : Session) (s : Stream) (h : Goes g key p s) (c : Stream.Call) :
    Step1 g key p s c := by
  cases p with
  | idle l => exact step_idle g key l s h c
  | enc iv a data => exact step_enc g key iv a data s h c
  | dec iv tag a data => exact step_dec g key iv tag a data s h c
  | stuck a n => exact step_stuck g key a n s h c

theorem observed_eq (g : Gcm) (key : Bytes) : ∀ (cs : List Stream.Call) (p : Session) (s : Stream), Goes g key p s →
    observed g s cs = toRes (p.answers g key cs)
  | [], _, _, _ => rfl
  | c :: cs, p, s, h => by
    have hs := step_any g key p s h c
    unfold Step1 at hs
    rw [observed, answers]
    cases ha : p.answer g key c with
    | none => rw [ha] at hs; dsimp only at hs; rw [hs]; rfl
    | some a =>
      rw [ha] at hs
      obtain ⟨s', h1, h2⟩ := hs
      rw [h1, Res.ok_bind]
      dsimp only
      rw [observed_eq g key cs _ s' h2]
      cases answers g key (p.next c) cs <;> rfl

/-- C151: whatever calls are made on a new stream object, with whatever key, in whatever order: the codes, the errors
and the bytes given out by all of them, and whether one of them is undefined, are those of the specification. -/
theorem C151_answers (g : Gcm) (key : Bytes) (cs : List Stream.Call) :
    observed g { key := key } cs = toRes ((Session.idle 0).answers g key cs) :=
  observed_eq g key cs _ _ ⟨rfl, rfl, rfl, rfl, rfl, rfl⟩

/-- The same for each call: after the calls `pre`, none of them undefined, the call `c` answers what the session says. -/
theorem answers_append (g : Gcm) (key : Bytes) : ∀ (xs ys : List Stream.Call) (p : Session),
    p.answers g key (xs ++ ys) = (p.answers g key xs).bind fun l =>
      ((xs.foldl next p).answers g key ys).map (l ++ ·)
  | [], ys, p => by
    show p.answers g key ys = (p.answers g key ys).map ([] ++ ·)
    cases p.answers g key ys <;> rfl
  | x :: xs, ys, p => by
    show (do let a ← p.answer g key x; let l ← (p.next x).answers g key (xs ++ ys); some (a :: l)) = _
    rw [answers, List.foldl_cons, answers_append g key xs ys (p.next x)]
    cases p.answer g key x with
    | none => rfl
    | some a =>
      cases (p.next x).answers g key xs with
      | none => rfl
      | some l => cases (xs.foldl next (p.next x)).answers g key ys <;> rfl

theorem answers_none_iff (g : Gcm) (key : Bytes) : ∀ (cs : List Stream.Call) (p : Session),
    p.answers g key cs = none ↔ ∃ pre c post, cs = pre ++ c :: post ∧ (pre.foldl next p).answer g key c = none
  | [], p => by simp [answers]
  | x :: xs, p => by
    rw [answers]
    constructor
    · intro h
      cases ha : p.answer g key x with
      | none => exact ⟨[], x, xs, rfl, ha⟩
      | some a =>
        rw [ha] at h
        cases hb : (p.next x).answers g key xs with
        | none =>
          obtain ⟨pre, c, post, h1, h2⟩ := (answers_none_iff g key xs _).mp hb
          exact ⟨x :: pre, c, post, by rw [h1]; rfl, h2⟩
        | some l =>
          rw [show (do let a ← some a; let l ← (p.next x).answers g key xs; some (a :: l)) = some (a :: l) by
            rw [hb]; rfl] at h
          cases h
    · rintro ⟨pre, c, post, h1, h2⟩
      cases pre with
      | nil => cases h1; rw [show p.answer g key x = none from h2]; rfl
      | cons y pre =>
        obtain ⟨rfl, e⟩ := List.cons.inj h1
        have e' : xs = pre ++ c :: post := e
        rw [e', (answers_none_iff g key _ _).mpr ⟨pre, c, post, rfl, h2⟩]
        cases p.answer g key x <;> rfl

theorem answer_none_iff (g : Gcm) (key : Bytes) (p : Session) (c : Stream.Call) :
    p.answer g key c = none ↔ (∃ l, p = .idle l) ∧ ∃ iv, (c = .encInit iv ∨ ∃ tag, c = .decInit iv tag) ∧
      (key.length < 32 ∨ iv = []) := by
  constructor
  · intro h
    cases p <;> cases c <;> simp only [answer] at h <;> (try split at h) <;> (try split at h) <;> (try split at h) <;>
      first
      | exact ⟨⟨_, rfl⟩, _, Or.inl rfl, by assumption⟩
      | exact ⟨⟨_, rfl⟩, _, Or.inr ⟨_, rfl⟩, by assumption⟩
      | exact absurd h (by simp)
  · rintro ⟨⟨l, rfl⟩, iv, rfl | ⟨tag, rfl⟩, h⟩ <;> simp only [answer] <;> rw [if_pos h]

/-- C151: a history is undefined exactly if an encryption or a decryption is started, while nothing is running, with a
key of less than 32 bytes or an empty IV. -/
theorem C151_undefined (g : Gcm) (key : Bytes) (cs : List Stream.Call) :
    observed g { key := key } cs = .ub ↔
      ∃ pre c post l iv, cs = pre ++ c :: post ∧ pre.foldl next (.idle 0) = .idle l ∧
        (c = .encInit iv ∨ ∃ tag, c = .decInit iv tag) ∧ (key.length < 32 ∨ iv = []) := by
  rw [C151_answers]
  have : toRes ((Session.idle 0).answers g key cs) = .ub ↔ (Session.idle 0).answers g key cs = none := by
    cases (Session.idle 0).answers g key cs <;> simp [toRes]
  rw [this, answers_none_iff]
  constructor
  · rintro ⟨pre, c, post, h1, h2⟩
    obtain ⟨⟨l, h3⟩, iv, h4, h5⟩ := (answer_none_iff g key _ c).mp h2
    exact ⟨pre, c, post, l, iv, h1, h3, h4, h5⟩
  · rintro ⟨pre, c, post, l, iv, h1, h3, h4, h5⟩
    exact ⟨pre, c, post, h1, (answer_none_iff g key _ c).mpr ⟨⟨l, h3⟩, iv, h4, h5⟩⟩

/-- The bytes passed to updates of an encryption. -/
def plain : List Stream.Call → Bytes
  | [] => []
  | .encUpdate m :: cs => m ++ plain cs
  | _ :: cs => plain cs

/-- The bytes passed to updates of a decryption. -/
def cipher : List Stream.Call → Bytes
  | [] => []
  | .decUpdate m :: cs => m ++ cipher cs
  | _ :: cs => cipher cs

/-- The bytes given out. -/
def given (l : List (Sig × Bytes)) : Bytes := (l.map Prod.snd).flatten

theorem plain_append : ∀ xs ys : List Stream.Call, plain (xs ++ ys) = plain xs ++ plain ys
  | [], _ => rfl
  | x :: xs, ys => by
    cases x <;> simp only [List.cons_append, plain, plain_append xs ys, List.append_assoc]

theorem cipher_append : ∀ xs ys : List Stream.Call, cipher (xs ++ ys) = cipher xs ++ cipher ys
  | [], _ => rfl
  | x :: xs, ys => by
    cases x <;> simp only [List.cons_append, cipher, cipher_append xs ys, List.append_assoc]

theorem given_append (xs ys : List (Sig × Bytes)) : given (xs ++ ys) = given xs ++ given ys := by
  simp [given]

/-- What the history says about the session that is running. -/
def Since (g : Gcm) (key : Bytes) (cs : List Stream.Call) (outs : List (Sig × Bytes)) : Session → Prop
  | .enc iv a data => ∃ pre mid opre omid, cs = pre ++ .encInit iv :: mid ∧ outs = opre ++ (.ret none, iv) :: omid ∧
      opre.length = pre.length ∧ plain mid = data.flatten ∧
      given omid = g.crypt (key.take 32) iv 0 data.flatten ∧ (Stream.Call.setAad ∉ mid → a.fed = [])
  | .dec iv tag a data => ∃ pre mid opre omid, cs = pre ++ .decInit iv tag :: mid ∧
      outs = opre ++ (.ret none, []) :: omid ∧ opre.length = pre.length ∧ cipher mid = data.flatten ∧
      given omid = g.crypt (key.take 32) iv 0 data.flatten ∧ (Stream.Call.setAad ∉ mid → a.fed = [])
  | _ => True

theorem since_enc (g : Gcm) (key : Bytes) {cs : List Stream.Call} {outs : List (Sig × Bytes)} {iv : Bytes}
    {a a' : Collected} {data data' : List Bytes} (c : Stream.Call) (o : Sig × Bytes)
    (hs : Since g key cs outs (.enc iv a data)) (hp : data.flatten ++ plain [c] = data'.flatten)
    (ho : g.crypt (key.take 32) iv 0 data.flatten ++ o.2 = g.crypt (key.take 32) iv 0 data'.flatten)
    (ha : c ≠ .setAad → a'.fed = a.fed) : Since g key (cs ++ [c]) (outs ++ [o]) (.enc iv a' data') := by
  obtain ⟨pre, mid, opre, omid, rfl, rfl, h1, h2, h3, h4⟩ := hs
  refine ⟨pre, mid ++ [c], opre, omid ++ [o], by simp, by simp, h1, ?_, ?_, ?_⟩
  · rw [plain_append, h2]; exact hp
  · rw [given_append, h3, ← ho]; simp [given]
  · intro hn
    have hc : c ≠ .setAad := fun h => hn (by simp [h])
    rw [ha hc]
    exact h4 (fun h => hn (by simp [h]))

theorem since_dec (g : Gcm) (key : Bytes) {cs : List Stream.Call} {outs : List (Sig × Bytes)} {iv tag : Bytes}
    {a a' : Collected} {data data' : List Bytes} (c : Stream.Call) (o : Sig × Bytes)
    (hs : Since g key cs outs (.dec iv tag a data)) (hp : data.flatten ++ cipher [c] = data'.flatten)
    (ho : g.crypt (key.take 32) iv 0 data.flatten ++ o.2 = g.crypt (key.take 32) iv 0 data'.flatten)
    (ha : c ≠ .setAad → a'.fed = a.fed) : Since g key (cs ++ [c]) (outs ++ [o]) (.dec iv tag a' data') := by
  obtain ⟨pre, mid, opre, omid, rfl, rfl, h1, h2, h3, h4⟩ := hs
  refine ⟨pre, mid ++ [c], opre, omid ++ [o], by simp, by simp, h1, ?_, ?_, ?_⟩
  · rw [cipher_append, h2]; exact hp
  · rw [given_append, h3, ← ho]; simp [given]
  · intro hn
    have hc : c ≠ .setAad := fun h => hn (by simp [h])
    rw [ha hc]
    exact h4 (fun h => hn (by simp [h]))

theorem collect_fed (a : Collected) (x : Option Bytes) : (collect a x).fed = a.fed := by cases x <;> rfl

theorem since_step (g : Gcm) (key : Bytes) (cs : List Stream.Call) (outs : List (Sig × Bytes)) (p : Session)
    (hl : outs.length = cs.length) (hs : Since g key cs outs p) (c : Stream.Call) (o : Sig × Bytes)
    (ha : p.answer g key c = some o) : Since g key (cs ++ [c]) (outs ++ [o]) (p.next c) := by
  cases p with
  | idle l =>
    cases c with
    | encInit iv =>
      simp only [answer] at ha
      split at ha
      · cases ha
      · cases ha
        exact ⟨cs, [], outs, [], rfl, rfl, hl, rfl, rfl, fun _ => rfl⟩
    | decInit iv tag =>
      simp only [answer] at ha
      split at ha
      · cases ha
      · cases ha
        exact ⟨cs, [], outs, [], rfl, rfl, hl, rfl, rfl, fun _ => rfl⟩
    | _ => trivial
  | stuck a n => cases c <;> trivial
  | enc iv a data =>
    cases c with
    | initAad x =>
      cases ha
      exact since_enc g key _ _ hs (by simp [plain]) (by simp) (fun _ => collect_fed a x)
    | setAad =>
      cases ha
      exact since_enc g key _ _ hs (by simp [plain]) (by simp) (fun h => absurd rfl h)
    | encInit i => cases ha; exact since_enc g key _ _ hs (by simp [plain]) (by simp) (fun _ => rfl)
    | decInit i t => cases ha; exact since_enc g key _ _ hs (by simp [plain]) (by simp) (fun _ => rfl)
    | decUpdate m => cases ha; exact since_enc g key _ _ hs (by simp [plain]) (by simp) (fun _ => rfl)
    | decFinalize => cases ha; exact since_enc g key _ _ hs (by simp [plain]) (by simp) (fun _ => rfl)
    | encUpdate m =>
      simp only [answer] at ha
      simp only [next]
      split at ha
      · next hm =>
        cases ha
        rw [if_pos hm]
        subst hm
        exact since_enc g key _ _ hs (by simp [plain]) (by simp) (fun _ => rfl)
      · next hm =>
        cases ha
        rw [if_neg hm]
        exact since_enc g key _ _ hs (by simp [plain]) (by rw [drop_crypt, crypt_snoc]) (fun _ => rfl)
    | encFinalize n =>
      simp only [answer] at ha
      simp only [next]
      by_cases hd : data = []
      · rw [if_pos hd] at ha
        rw [if_pos (Or.inl hd)]
        cases ha
        exact since_enc g key _ _ hs (by simp [plain]) (by simp) (fun _ => rfl)
      · by_cases hn : n = data.flatten.length
        · rw [if_neg (fun h => h.elim hd (fun h => h hn))]
          split <;> trivial
        · rw [if_neg hd, if_pos hn] at ha
          rw [if_pos (Or.inr hn)]
          cases ha
          exact since_enc g key _ _ hs (by simp [plain]) (by simp) (fun _ => rfl)
  | dec iv tag a data =>
    cases c with
    | initAad x =>
      cases ha
      exact since_dec g key _ _ hs (by simp [cipher]) (by simp) (fun _ => collect_fed a x)
    | setAad =>
      cases ha
      exact since_dec g key _ _ hs (by simp [cipher]) (by simp) (fun h => absurd rfl h)
    | encInit i => cases ha; exact since_dec g key _ _ hs (by simp [cipher]) (by simp) (fun _ => rfl)
    | decInit i t => cases ha; exact since_dec g key _ _ hs (by simp [cipher]) (by simp) (fun _ => rfl)
    | encUpdate m => cases ha; exact since_dec g key _ _ hs (by simp [cipher]) (by simp) (fun _ => rfl)
    | encFinalize n => cases ha; exact since_dec g key _ _ hs (by simp [cipher]) (by simp) (fun _ => rfl)
    | decUpdate m =>
      simp only [answer] at ha
      simp only [next]
      split at ha
      · next hm =>
        cases ha
        rw [if_pos hm]
        subst hm
        exact since_dec g key _ _ hs (by simp [cipher]) (by simp) (fun _ => rfl)
      · next hm =>
        cases ha
        rw [if_neg hm]
        exact since_dec g key _ _ hs (by simp [cipher]) (by rw [drop_crypt, crypt_snoc]) (fun _ => rfl)
    | decFinalize =>
      simp only [answer] at ha
      simp only [next]
      split
      · next hd =>
        rw [if_pos hd] at ha
        cases ha
        exact since_dec g key _ _ hs (by simp [cipher]) (by simp) (fun _ => rfl)
      · trivial

theorem since_run (g : Gcm) (key : Bytes) : ∀ (xs cs : List Stream.Call) (outs outs' : List (Sig × Bytes)) (p : Session),
    outs.length = cs.length → Since g key cs outs p → p.answers g key xs = some outs' →
      Since g key (cs ++ xs) (outs ++ outs') (xs.foldl next p)
  | [], cs, outs, outs', p, _, hs, h => by
    cases h; simpa using hs
  | x :: xs, cs, outs, outs', p, hl, hs, h => by
    rw [answers] at h
    cases ha : p.answer g key x with
    | none => rw [ha] at h; cases h
    | some a =>
      rw [ha] at h
      cases hb : (p.next x).answers g key xs with
      | none =>
        rw [show (do let a ← some a; let l ← (p.next x).answers g key xs; some (a :: l)) = none by rw [hb]; rfl] at h
        cases h
      | some l =>
        rw [show (do let a ← some a; let l ← (p.next x).answers g key xs; some (a :: l)) = some (a :: l) by
          rw [hb]; rfl] at h
        cases h
        have := since_run g key xs (cs ++ [x]) (outs ++ [a]) l (p.next x) (by simp [hl])
          (since_step g key cs outs p hl hs x a ha) hb
        simpa using this

theorem observed_last (g : Gcm) (key : Bytes) (cs : List Stream.Call) (c : Stream.Call) (outs : List (Sig × Bytes))
    (o : Sig × Bytes) (h : observed g { key := key } (cs ++ [c]) = .ok (outs ++ [o])) :
    Since g key cs outs (cs.foldl next (.idle 0)) ∧ (cs.foldl next (.idle 0)).answer g key c = some o := by
  rw [C151_answers, answers_append] at h
  cases ha : (Session.idle 0).answers g key cs with
  | none => rw [ha] at h; cases h
  | some l =>
    rw [ha] at h
    cases hb : (cs.foldl next (.idle 0)).answer g key c with
    | none =>
      rw [show (cs.foldl next (.idle 0)).answers g key [c] = none by rw [answers, hb]; rfl] at h
      cases h
    | some o' =>
      rw [show (cs.foldl next (.idle 0)).answers g key [c] = some [o'] by rw [answers, hb]; rfl] at h
      have h' : l ++ [o'] = outs ++ [o] := Res.ok.inj h
      obtain ⟨h1, h2⟩ := List.append_inj' h' rfl
      cases h2
      rw [h1] at ha
      exact ⟨by simpa using since_run g key cs [] [] outs (.idle 0) rfl trivial ha, rfl⟩

/-- C151: whatever calls were made before and in between, a tag that is given out is the tag of all bytes given out
since the encryption was started, under its IV, and these are the encryption of all bytes passed to updates since
then; without a call that passes associated data on there is none. -/
theorem C151_tag (g : Gcm) (key : Bytes) (cs : List Stream.Call) (n : Nat) (outs : List (Sig × Bytes)) (o : Sig) (t : Bytes)
    (ht : t ≠ []) (h : observed g { key := key } (cs ++ [.encFinalize n]) = .ok (outs ++ [(o, t)])) :
    ∃ pre iv mid opre omid fed, cs = pre ++ .encInit iv :: mid ∧ outs = opre ++ (.ret none, iv) :: omid ∧
      opre.length = pre.length ∧ t = g.mac (key.take 32) iv fed (given omid) ∧
      given omid = g.crypt (key.take 32) iv 0 (plain mid) ∧ n = (plain mid).length ∧
      (Stream.Call.setAad ∉ mid → fed = []) := by
  obtain ⟨hs, ha⟩ := observed_last g key cs _ outs (o, t) h
  revert hs ha
  generalize cs.foldl next (.idle 0) = p
  intro hs ha
  cases p with
  | enc iv a data =>
    simp only [answer] at ha
    split at ha
    · cases ha; exact absurd rfl ht
    · next hd =>
      split at ha
      · cases ha; exact absurd rfl ht
      · next hn =>
        split at ha
        · cases ha
          obtain ⟨pre, mid, opre, omid, h1, h2, h3, h4, h5, h6⟩ := hs
          have hn' : n = data.flatten.length := Decidable.of_not_not hn
          exact ⟨pre, iv, mid, opre, omid, a.fed, h1, h2, h3, by rw [h5], by rw [h4]; exact h5, by rw [h4]; exact hn', h6⟩
        · cases ha; exact absurd rfl ht
  | _ => cases ha; exact absurd rfl ht

/-- C151: whatever calls were made before and in between, a decryption is reported as correct only if it was started
with a tag of 1 to 16 bytes that begins the tag of all bytes passed to updates since then; what was
given out since then is their decryption. -/
theorem C151_accepted (g : Gcm) (key : Bytes) (cs : List Stream.Call) (outs : List (Sig × Bytes)) (o : Bytes)
    (h : observed g { key := key } (cs ++ [.decFinalize]) = .ok (outs ++ [(.ret none, o)])) :
    ∃ pre iv tag mid opre omid fed, cs = pre ++ .decInit iv tag :: mid ∧ outs = opre ++ (.ret none, []) :: omid ∧
      opre.length = pre.length ∧ 1 ≤ tag.length ∧ tag.length ≤ 16 ∧
      tag <+: g.mac (key.take 32) iv fed (cipher mid) ∧
      given omid = g.crypt (key.take 32) iv 0 (cipher mid) ∧
      (Stream.Call.setAad ∉ mid → fed = []) := by
  obtain ⟨hs, ha⟩ := observed_last g key cs _ outs (.ret none, o) h
  revert hs ha
  generalize cs.foldl next (.idle 0) = p
  intro hs ha
  cases p with
  | dec iv tag a data =>
    simp only [answer] at ha
    split at ha
    · cases ha
    · split at ha
      · next hc =>
        obtain ⟨pre, mid, opre, omid, h1, h2, h3, h4, h5, h6⟩ := hs
        exact ⟨pre, iv, tag, mid, opre, omid, a.fed, h1, h2, h3, hc.1, hc.2.1, by rw [h4]; exact hc.2.2, by rw [h4]; exact h5, h6⟩
      · cases ha
  | _ => cases ha

/-- A history with misplaced calls in which a tag is given out, and one in which it is accepted. -/
example : ∃ outs t, t ≠ [] ∧ observed Sym.Ex.toy { key := Sym.Ex.key32 }
    ([.encUpdate [9], .encInit Sym.Ex.iv16, .decInit Sym.Ex.iv16 [], .encUpdate [1, 2], .decUpdate [7], .encUpdate [3]] ++
      [.encFinalize 3]) = .ok (outs ++ [(.ret none, t)]) ∧
    ∃ outs', observed Sym.Ex.toy { key := Sym.Ex.key32 }
      ([.decInit Sym.Ex.iv16 t, .encInit Sym.Ex.iv16, .decUpdate (given (outs.drop 2))] ++ [.decFinalize]) =
        .ok (outs' ++ [(.ret none, [])]) := by
  refine ⟨[(.ret none, []), (.ret none, Sym.Ex.iv16), (.ret (some .invalidInput), []),
    (.ret none, Sym.Ex.toy.crypt Sym.Ex.key32 Sym.Ex.iv16 0 [1, 2]), (.ret none, []),
    (.ret none, Sym.Ex.toy.crypt Sym.Ex.key32 Sym.Ex.iv16 2 [3])],
    Sym.Ex.toy.mac Sym.Ex.key32 Sym.Ex.iv16 [] (Sym.Ex.toy.crypt Sym.Ex.key32 Sym.Ex.iv16 0 [1, 2, 3]), by decide +kernel, by decide +kernel,
    [(.ret none, []), (.ret (some .invalidInput), []), (.ret none, [1, 2, 3])], by decide +kernel⟩

end Session
end Abe
