import Verif.Model.HashAttr
import Verif.Proof.ParsedFacts
/-!
# Replacing words in texts

`runs` are the maximal runs of word characters of a text. Replacing a word that occurs in the runs only as a whole
replaces runs, and the scanner sees the same tokens with other names.
-/
set_option linter.unusedSimpArgs false
set_option linter.unusedSectionVars false
set_option autoImplicit false
namespace Abe

attribute [local irreducible] isWord

/-- The maximal runs of word characters of a text, in order. -/
def runs : Bytes → List Bytes
  | [] => []
  | b :: s => if isWord b then (b :: s.takeWhile isWord) :: runs (s.dropWhile isWord) else runs s
termination_by s => s.length
decreasing_by
  · have := (List.dropWhile_sublist (l := s) isWord).length_le
    simp only [List.length_cons]; omega
  · simp

/-- The text with every run replaced. -/
def mapRuns (f : Bytes → Bytes) : Bytes → Bytes
  | [] => []
  | b :: s => if isWord b then f (b :: s.takeWhile isWord) ++ mapRuns f (s.dropWhile isWord) else b :: mapRuns f s
termination_by s => s.length
decreasing_by
  · have := (List.dropWhile_sublist (l := s) isWord).length_le
    simp only [List.length_cons]; omega
  · simp

/-- A run followed by something that does not continue it. -/
def EndsRun (r : Bytes) : Prop := ∀ c, r.head? = some c → isWord c = false

theorem endsRun_dropWhile (s : Bytes) : EndsRun (s.dropWhile isWord) := by
  intro c hc
  have := List.head?_dropWhile_not isWord s
  rw [hc] at this
  simpa using this

theorem takeWhile_run {w rest : Bytes} (hw : w.all isWord = true) (hr : EndsRun rest) :
    (w ++ rest).takeWhile isWord = w ∧ (w ++ rest).dropWhile isWord = rest := by
  have hw' : ∀ x ∈ w, isWord x = true := List.all_eq_true.mp hw
  rw [List.takeWhile_append_of_pos hw', List.dropWhile_append_of_pos hw']
  cases rest with
  | nil => simp
  | cons c rest =>
    have := hr c rfl
    simp [this]

theorem all_takeWhile (s : Bytes) : (s.takeWhile isWord).all isWord = true := by
  simp

theorem runs_append {w rest : Bytes} (hw : w.all isWord = true) (hn : w ≠ []) (hr : EndsRun rest) :
    runs (w ++ rest) = w :: runs rest := by
  cases w with
  | nil => exact absurd rfl hn
  | cons b w =>
    simp only [List.all_cons, Bool.and_eq_true] at hw
    obtain ⟨h1, h2⟩ := takeWhile_run hw.2 hr
    rw [List.cons_append, runs, if_pos hw.1, h1, h2]

theorem mapRuns_append (f : Bytes → Bytes) {w rest : Bytes} (hw : w.all isWord = true) (hn : w ≠ []) (hr : EndsRun rest) :
    mapRuns f (w ++ rest) = f w ++ mapRuns f rest := by
  cases w with
  | nil => exact absurd rfl hn
  | cons b w =>
    simp only [List.all_cons, Bool.and_eq_true] at hw
    obtain ⟨h1, h2⟩ := takeWhile_run hw.2 hr
    rw [List.cons_append, mapRuns, if_pos hw.1, h1, h2]

/-- Induction over runs. -/
theorem run_induction {P : Bytes → Prop} (h0 : P []) (h1 : ∀ b s, isWord b = false → P s → P (b :: s))
    (h2 : ∀ w rest, w.all isWord = true → w ≠ [] → EndsRun rest → P rest → P (w ++ rest)) (s : Bytes) : P s := by
  induction hn : s.length using Nat.strong_induction_on generalizing s with
  | _ n ih =>
    cases s with
    | nil => exact h0
    | cons b s =>
      simp only [List.length_cons] at hn
      cases hb : isWord b with
      | false => exact h1 b s hb (ih s.length (by omega) s rfl)
      | true =>
        have hl := (List.dropWhile_sublist (l := s) isWord).length_le
        have := h2 (b :: s.takeWhile isWord) (s.dropWhile isWord) (by simp [hb, all_takeWhile]) (by simp)
          (endsRun_dropWhile s) (ih _ (by omega) _ rfl)
        rwa [List.cons_append, List.takeWhile_append_dropWhile] at this

theorem runs_cons_nonword {b : UInt8} (h : isWord b = false) (s : Bytes) : runs (b :: s) = runs s := by
  rw [runs, if_neg (by simp [h])]
theorem mapRuns_cons_nonword (f : Bytes → Bytes) {b : UInt8} (h : isWord b = false) (s : Bytes) :
    mapRuns f (b :: s) = b :: mapRuns f s := by
  rw [mapRuns, if_neg (by simp [h])]
@[simp] theorem runs_nil : runs [] = [] := by rw [runs]
@[simp] theorem mapRuns_nil (f : Bytes → Bytes) : mapRuns f [] = [] := by rw [mapRuns]

theorem runs_word {s r : Bytes} (h : r ∈ runs s) : r.all isWord = true ∧ r ≠ [] := by
  induction s using run_induction with
  | h0 => simp at h
  | h1 b s hb ih => rw [runs_cons_nonword hb] at h; exact ih h
  | h2 w rest hw hn hr ih =>
    rw [runs_append hw hn hr, List.mem_cons] at h
    rcases h with rfl | h
    · exact ⟨hw, hn⟩
    · exact ih h

theorem mapRuns_congr {f g : Bytes → Bytes} {s : Bytes} (h : ∀ r ∈ runs s, f r = g r) : mapRuns f s = mapRuns g s := by
  induction s using run_induction with
  | h0 => simp
  | h1 b s hb ih =>
    rw [runs_cons_nonword hb] at h
    rw [mapRuns_cons_nonword _ hb, mapRuns_cons_nonword _ hb, ih h]
  | h2 w rest hw hn hr ih =>
    rw [runs_append hw hn hr] at h
    rw [mapRuns_append _ hw hn hr, mapRuns_append _ hw hn hr, h w (by simp), ih (fun r hr => h r (by simp [hr]))]

theorem mapRuns_id {f : Bytes → Bytes} {s : Bytes} (h : ∀ r ∈ runs s, f r = r) : mapRuns f s = s := by
  rw [mapRuns_congr (g := id) h]
  induction s using run_induction with
  | h0 => simp
  | h1 b s hb ih =>
    rw [runs_cons_nonword hb] at h
    rw [mapRuns_cons_nonword _ hb, ih h]
  | h2 w rest hw hn hr ih =>
    rw [runs_append hw hn hr] at h
    rw [mapRuns_append _ hw hn hr, ih (fun r hr => h r (by simp [hr]))]; rfl

/-- A function that keeps runs runs. -/
def KeepsRuns (f : Bytes → Bytes) (s : Bytes) : Prop := ∀ r ∈ runs s, (f r).all isWord = true ∧ f r ≠ []

theorem endsRun_mapRuns {f : Bytes → Bytes} {s : Bytes} (hs : EndsRun s) : EndsRun (mapRuns f s) := by
  cases s with
  | nil => rw [mapRuns_nil]; exact hs
  | cons b s =>
    have hb := hs b rfl
    rw [mapRuns_cons_nonword _ hb]
    intro c hc
    cases hc; exact hb

theorem runs_mapRuns {f : Bytes → Bytes} {s : Bytes} (h : KeepsRuns f s) : runs (mapRuns f s) = (runs s).map f := by
  induction s using run_induction with
  | h0 => simp
  | h1 b s hb ih =>
    unfold KeepsRuns at h
    rw [runs_cons_nonword hb] at h ⊢
    rw [mapRuns_cons_nonword _ hb, runs_cons_nonword hb, ih h]
  | h2 w rest hw hn hr ih =>
    unfold KeepsRuns at h
    rw [runs_append hw hn hr] at h
    rw [mapRuns_append _ hw hn hr, runs_append hw hn hr, List.map_cons,
      runs_append (h w (by simp)).1 (h w (by simp)).2 (endsRun_mapRuns hr), ih (fun r hr => h r (by simp [hr]))]

theorem mapRuns_mapRuns {f g : Bytes → Bytes} {s : Bytes} (h : KeepsRuns f s) :
    mapRuns g (mapRuns f s) = mapRuns (fun r => g (f r)) s := by
  induction s using run_induction with
  | h0 => simp
  | h1 b s hb ih =>
    unfold KeepsRuns at h
    rw [runs_cons_nonword hb] at h
    rw [mapRuns_cons_nonword _ hb, mapRuns_cons_nonword _ hb, mapRuns_cons_nonword _ hb, ih h]
  | h2 w rest hw hn hr ih =>
    unfold KeepsRuns at h
    rw [runs_append hw hn hr] at h
    rw [mapRuns_append _ hw hn hr, mapRuns_append _ hw hn hr, 
      mapRuns_append _ (h w (by simp)).1 (h w (by simp)).2 (endsRun_mapRuns hr), ih (fun r hr => h r (by simp [hr]))]

/-! ### Replacing a word -/

theorem prefix_of_run {old rest : Bytes} (ho : old.all isWord = true) (hr : EndsRun rest) :
    ∀ {w : Bytes}, old <+: w ++ rest → old <+: w := by
  induction old with
  | nil => intro w _; exact List.nil_prefix
  | cons a old ih =>
    simp only [List.all_cons, Bool.and_eq_true] at ho
    intro w h
    cases w with
    | nil =>
      obtain ⟨t, ht⟩ := h
      have := hr a (by rw [List.nil_append] at ht; rw [← ht]; rfl)
      rw [ho.1] at this; cases this
    | cons b w =>
      rw [List.cons_append, List.cons_prefix_cons] at h
      rw [List.cons_prefix_cons]
      exact ⟨h.1, ih ho.2 h.2⟩

theorem replaceFrom_nil (old new : Bytes) (n : Nat) : replaceFrom old new n [] = [] := by cases n <;> rfl

/-- The number of steps does not matter if it is enough. -/
theorem replaceFrom_fuel {old : Bytes} (ho : old ≠ []) (new : Bytes) : ∀ (n m : Nat) (s : Bytes), s.length ≤ n → s.length ≤ m →
    replaceFrom old new n s = replaceFrom old new m s := by
  intro n
  induction n with
  | zero => intro m s h _; rw [List.length_eq_zero_iff.mp (Nat.le_zero.mp h), replaceFrom_nil, replaceFrom_nil]
  | succ n ih =>
    intro m s hn hm
    cases s with
    | nil => rw [replaceFrom_nil, replaceFrom_nil]
    | cons b s =>
      cases m with
      | zero => simp at hm
      | succ m =>
        simp only [List.length_cons] at hn hm
        have hl : 0 < old.length := List.length_pos_iff.mpr ho
        simp only [replaceFrom]
        split
        · rw [ih m _ (by simp; omega) (by simp; omega)]
        · rw [ih m _ (by omega) (by omega)]

/-- `replaceFrom` with enough steps. -/
def repl (old new s : Bytes) : Bytes := replaceFrom old new s.length s

theorem repl_nil (old new : Bytes) : repl old new [] = [] := rfl
theorem repl_cons {old : Bytes} (ho : old ≠ []) (new : Bytes) (b : UInt8) (s : Bytes) :
    repl old new (b :: s) =
      if old <+: b :: s then new ++ repl old new ((b :: s).drop old.length) else b :: repl old new s := by
  have hl : 0 < old.length := List.length_pos_iff.mpr ho
  unfold repl
  simp only [List.length_cons, replaceFrom, List.isPrefixOf_iff_prefix]
  split
  · rw [replaceFrom_fuel ho new s.length _ _ (by simp; omega) (Nat.le_refl _)]
  · rfl

theorem repl_run {old : Bytes} (ho : old ≠ []) (hw : old.all isWord = true) (new : Bytes) {rest : Bytes} (hr : EndsRun rest) :
    ∀ w : Bytes, ¬ old <:+: w → repl old new (w ++ rest) = w ++ repl old new rest := by
  intro w
  induction w with
  | nil => intro _; rfl
  | cons b w ih =>
    intro h
    rw [List.infix_cons_iff, not_or] at h
    rw [List.cons_append, repl_cons ho, if_neg (show ¬ old <+: b :: (w ++ rest) from fun hp => h.1 (prefix_of_run hw hr (w := b :: w) hp)), ih h.2]; rfl

/-- Replacing a word that occurs in the runs only as a whole. -/
theorem repl_eq {old : Bytes} (ho : old ≠ []) (hw : old.all isWord = true) (new : Bytes) {s : Bytes}
    (h : ∀ r ∈ runs s, old <:+: r → r = old) : repl old new s = mapRuns (fun r => if r = old then new else r) s := by
  induction s using run_induction with
  | h0 => rw [mapRuns_nil]; rfl
  | h1 b s hb ih =>
    rw [runs_cons_nonword hb] at h
    rw [mapRuns_cons_nonword _ hb, repl_cons ho, if_neg, ih h]
    intro hp
    cases old with
    | nil => exact ho rfl
    | cons a old =>
      rw [List.cons_prefix_cons] at hp
      simp only [List.all_cons, Bool.and_eq_true] at hw
      rw [← hp.1, hw.1] at hb; cases hb
  | h2 w rest hww hn hr ih =>
    rw [runs_append hww hn hr] at h
    rw [mapRuns_append _ hww hn hr, ← ih (fun r hr => h r (by simp [hr]))]
    by_cases hi : old <:+: w
    · have hwo := h w (by simp) hi
      subst hwo
      rw [if_pos rfl]
      cases hw' : w with
      | nil => exact absurd hw' hn
      | cons b w' =>
        rw [List.cons_append, ← hw', repl_cons hn, if_pos]
        · rw [← List.cons_append, ← hw', List.drop_left]
        · rw [← List.cons_append, ← hw']; exact List.prefix_append _ _
    · rw [repl_run ho hw new hr w hi, if_neg]
      rintro rfl; exact hi (List.infix_refl _)

/-- What happens to a run. -/
def hashRun (h : Bytes → Bytes) (xs : List Bytes) (r : Bytes) : Bytes := if r ∈ xs then h r else r

theorem hashRun_keeps {h : Bytes → Bytes} {xs : List Bytes} {s : Bytes}
    (hh : ∀ x ∈ xs, x ∈ runs s → (h x).all isWord = true ∧ h x ≠ []) : KeepsRuns (hashRun h xs) s := by
  intro r hr
  unfold hashRun
  split
  · exact hh r (by assumption) hr
  · exact runs_word hr

/-- Replacing several words, one after the other. -/
theorem hashWords_eq {H : Bytes → Bytes} {xs : List Bytes} {s : Bytes} (hx : ∀ x ∈ xs, x ≠ [] ∧ x.all isWord = true)
    (hh : ∀ x ∈ xs, x ∈ runs s → (hashAttribute H x).all isWord = true) (h1 : ∀ x ∈ xs, ∀ r ∈ runs s, x <:+: r → r = x)
    (h2 : ∀ x ∈ xs, ∀ y ∈ xs, y ∈ runs s → ¬ x <:+: hashAttribute H y) :
    hashWords H xs s = .ok (mapRuns (hashRun (hashAttribute H) xs) s) := by
  have hne : ∀ x, hashAttribute H x ≠ [] := fun x => by simp [hashAttribute]
  have key : ∀ todo done : List Bytes, (∀ x ∈ done ++ todo, x ∈ xs) →
      hashWords H todo (mapRuns (hashRun (hashAttribute H) done) s) =
        .ok (mapRuns (hashRun (hashAttribute H) (done ++ todo)) s) := by
    intro todo
    induction todo with
    | nil => intro done _; rw [List.append_nil]; rfl
    | cons x todo ih =>
      intro done hd
      have hxs : x ∈ xs := hd x (by simp)
      have hk : KeepsRuns (hashRun (hashAttribute H) done) s :=
        hashRun_keeps (fun y hy hr => ⟨hh y (hd y (by simp [hy])) hr, hne y⟩)
      have hr : replaceAll (mapRuns (hashRun (hashAttribute H) done) s) x (hashAttribute H x) =
          .ok (mapRuns (hashRun (hashAttribute H) (done ++ [x])) s) := by
        unfold replaceAll
        rw [if_neg (hx x hxs).1]
        congr 1
        have := repl_eq (hx x hxs).1 (hx x hxs).2 (hashAttribute H x) (s := mapRuns (hashRun (hashAttribute H) done) s) (by
          rw [runs_mapRuns hk]
          intro r hr hi
          obtain ⟨r0, hr0, rfl⟩ := List.mem_map.mp hr
          unfold hashRun at hi ⊢
          split
          · rename_i hin
            rw [if_pos hin] at hi
            exact absurd hi (h2 x hxs r0 (hd r0 (by simp [hin])) hr0)
          · rename_i hin
            rw [if_neg hin] at hi
            exact h1 x hxs r0 hr0 hi)
        refine Eq.trans this ?_
        rw [mapRuns_mapRuns hk]
        refine mapRuns_congr fun r hrr => ?_
        unfold hashRun
        by_cases hin : r ∈ done
        · rw [if_pos hin, if_pos (show r ∈ done ++ [x] by simp [hin]), if_neg]
          intro e
          exact h2 x hxs r (hd r (by simp [hin])) hrr (by rw [e]; exact List.infix_refl _)
        · rw [if_neg hin]
          by_cases e : r = x
          · rw [if_pos e, if_pos (by simp [e]), e]
          · rw [if_neg e, if_neg (by simp [hin, e])]
      simp only [hashWords]
      rw [hr, Res.ok_bind, ih (done ++ [x]) (by intro y hy; exact hd y (by simpa using hy))]
      simp
  have := key xs [] (by simp)
  rwa [show mapRuns (hashRun (hashAttribute H) []) s = s from mapRuns_id (fun r _ => by simp [hashRun])] at this

/-! ### The scanner -/

/-- The token with the name replaced. -/
def Tok.mapName (f : Bytes → Bytes) : Tok → Tok
  | .leaf s => .leaf (f s)
  | t => t

theorem start_word {b : UInt8} (h : isStart b = true) : isWord b = true := by
  unfold isWord; simp [h]

theorem name_parts {s : Bytes} (h : isName s = true) : ∃ b w, s = b :: w ∧ isStart b = true ∧ w.all isWord = true ∧
    isReserved s = false := by
  cases s with
  | nil => cases h
  | cons b w =>
    simp only [isName, Bool.and_eq_true, Bool.not_eq_true'] at h
    exact ⟨b, w, rfl, h.1.1, h.1.2, h.2⟩

theorem name_word {s : Bytes} (h : isName s = true) : s.all isWord = true ∧ s ≠ [] := by
  obtain ⟨b, w, rfl, h1, h2, _⟩ := name_parts h
  simp [start_word h1]
  simpa using h2

/-- The runs are words to be replaced, or contain none. -/
def RunsOk (xs : List Bytes) (s : Bytes) : Prop := ∀ r ∈ runs s, r ∈ xs ∨ ∀ x ∈ xs, ¬ x <:+: r

theorem runsOk_of {xs : List Bytes} {s : Bytes} (h : ∀ x ∈ xs, ∀ r ∈ runs s, x <:+: r → r = x) : RunsOk xs s := by
  intro r hr
  by_cases hx : ∃ x ∈ xs, x <:+: r
  · obtain ⟨x, hx, hi⟩ := hx
    left; rw [h x hx r hr hi]; exact hx
  · right; intro x hx' hi; exact hx ⟨x, hx', hi⟩

/-- Before a character that does not start a word, nothing changes. -/
theorem mid_run {h : Bytes → Bytes} {xs : List Bytes} (hx : ∀ x ∈ xs, isName x = true) {b : UInt8} {s : Bytes}
    (hb : isStart b = false) (hs : RunsOk xs (b :: s)) :
    RunsOk xs s ∧ mapRuns (hashRun h xs) (b :: s) = b :: mapRuns (hashRun h xs) s := by
  cases hw : isWord b with
  | false => rw [mapRuns_cons_nonword _ hw]; unfold RunsOk at hs; rw [runs_cons_nonword hw] at hs; exact ⟨hs, rfl⟩
  | true =>
    have hr := endsRun_dropWhile s
    have hall := all_takeWhile s
    have e : s.takeWhile isWord ++ s.dropWhile isWord = s := List.takeWhile_append_dropWhile
    unfold RunsOk at hs
    rw [runs, if_pos hw] at hs
    have hno : ∀ x ∈ xs, ¬ x <:+: b :: s.takeWhile isWord := by
      rcases hs _ (List.mem_cons_self) with h1 | h1
      · obtain ⟨c, w, he, h2, _⟩ := name_parts (hx _ h1)
        cases he
        rw [hb] at h2; cases h2
      · exact h1
    have hno' : ∀ x ∈ xs, ¬ x <:+: s.takeWhile isWord := fun x hx hi => hno x hx (List.infix_cons hi)
    have hrest : ∀ r ∈ runs (s.dropWhile isWord), r ∈ xs ∨ ∀ x ∈ xs, ¬ x <:+: r :=
      fun r hr => hs r (List.mem_cons_of_mem _ hr)
    rw [mapRuns, if_pos hw]
    have e1 : hashRun h xs (b :: s.takeWhile isWord) = b :: s.takeWhile isWord := by
      unfold hashRun; rw [if_neg]; intro hin; exact hno _ hin (List.infix_refl _)
    rw [e1]
    by_cases hn : s.takeWhile isWord = []
    · rw [hn, List.nil_append] at e
      rw [hn, e] at *
      exact ⟨hrest, rfl⟩
    · constructor
      · intro r hmem
        rw [← e, runs_append hall hn hr, List.mem_cons] at hmem
        rcases hmem with rfl | hmem
        · exact .inr hno'
        · exact hrest r hmem
      · conv => rhs; rw [← e, mapRuns_append _ hall hn hr]
        have e2 : hashRun h xs (s.takeWhile isWord) = s.takeWhile isWord := by
          unfold hashRun; rw [if_neg]; intro hin; exact hno' _ hin (List.infix_refl _)
        rw [e2]; rfl

theorem digit_not_start {b : UInt8} (h : isDigit b = true) : isStart b = false := by
  have : ∀ n < 256, isDigit (UInt8.ofNat n) = true → isStart (UInt8.ofNat n) = false := by decide +kernel
  have := this b.toNat b.toNat_lt
  rw [UInt8.ofNat_toNat] at this
  exact this h

theorem start_head {h : Bytes → Bytes} {xs : List Bytes} (hh : ∀ x ∈ xs, isName (h x) = true) {b : UInt8} (s : Bytes)
    (hb : isStart b = true) : ∃ c t, mapRuns (hashRun h xs) (b :: s) = c :: t ∧ isStart c = true := by
  rw [mapRuns, if_pos (start_word hb)]
  unfold hashRun
  split
  · rename_i hin
    obtain ⟨c, w, he, hc, _⟩ := name_parts (hh _ hin)
    exact ⟨c, _, by rw [he]; rfl, hc⟩
  · exact ⟨b, _, rfl, hb⟩

theorem start_not_digit {b : UInt8} (h : isStart b = true) : isDigit b = false := by
  cases hd : isDigit b with
  | false => rfl
  | true => rw [digit_not_start hd] at h; cases h

theorem mid_digits {h : Bytes → Bytes} {xs : List Bytes} (hx : ∀ x ∈ xs, isName x = true)
    (hh : ∀ x ∈ xs, isName (h x) = true) : ∀ s : Bytes, RunsOk xs s → RunsOk xs (s.dropWhile isDigit) ∧
      (mapRuns (hashRun h xs) s).takeWhile isDigit = s.takeWhile isDigit ∧
      (mapRuns (hashRun h xs) s).dropWhile isDigit = mapRuns (hashRun h xs) (s.dropWhile isDigit) := by
  intro s
  induction s with
  | nil => intro hs; simp [hs]
  | cons b s ih =>
    intro hs
    cases hd : isDigit b with
    | true =>
      obtain ⟨h1, h2⟩ := mid_run (h := h) hx (digit_not_start hd) hs
      rw [h2]
      obtain ⟨i1, i2, i3⟩ := ih h1
      simp only [List.dropWhile_cons, List.takeWhile_cons, hd, if_true]
      exact ⟨i1, by rw [i2], i3⟩
    | false =>
      have e1 : (b :: s).dropWhile isDigit = b :: s := by simp [hd]
      have e2 : (b :: s).takeWhile isDigit = [] := by simp [hd]
      rw [e1, e2]
      refine ⟨hs, ?_⟩
      cases hst : isStart b with
      | true =>
        obtain ⟨c, t, he, hc⟩ := start_head (h := h) hh s hst
        rw [he]
        simp [start_not_digit hc]
      | false =>
        rw [(mid_run (h := h) hx hst hs).2]
        simp [hd]

theorem blank_not_start {b : UInt8} (h : isBlank b = true) : isStart b = false := by
  have : ∀ n < 256, isBlank (UInt8.ofNat n) = true → isStart (UInt8.ofNat n) = false := by decide +kernel
  have := this b.toNat b.toNat_lt
  rw [UInt8.ofNat_toNat] at this
  exact this h

theorem start_ne61 {b : UInt8} (h : isStart b = true) : b ≠ 61 := by rintro rfl; revert h; decide
theorem start_ne10 {b : UInt8} (h : isStart b = true) : b ≠ 10 := by rintro rfl; revert h; decide

/-- The scanner sees the same tokens with other names. -/
theorem lex_mapRuns {h : Bytes → Bytes} {xs : List Bytes} (hx : ∀ x ∈ xs, isName x = true)
    (hh : ∀ x ∈ xs, isName (h x) = true) (s : Bytes) (hs : RunsOk xs s) :
    lex (mapRuns (hashRun h xs) s) = (lex s).map (Tok.mapName (hashRun h xs)) := by
  induction hn : s.length using Nat.strong_induction_on generalizing s with
  | _ n ih =>
    cases s with
    | nil => simp
    | cons b s =>
      simp only [List.length_cons] at hn
      by_cases hst : isStart b = true
      · have hbl : isBlank b = false := by
          cases hbl : isBlank b with
          | false => rfl
          | true => rw [blank_not_start hbl] at hst; cases hst
        have hl := (List.dropWhile_sublist (l := s) isWord).length_le
        have hrest : RunsOk xs (s.dropWhile isWord) := by
          intro r hr; exact hs r (by rw [runs, if_pos (start_word hst)]; exact List.mem_cons_of_mem _ hr)
        have ihr := ih _ (by omega) _ hrest rfl
        have hends := endsRun_mapRuns (f := hashRun h xs) (endsRun_dropWhile s)
        rw [lex_cons b s, if_neg (by simp [hbl]), if_neg (start_ne10 hst), if_pos hst, List.map_cons, ← ihr, mapRuns,
          if_pos (start_word hst)]
        have hgen : ∀ (c : UInt8) (w : Bytes), isStart c = true → w.all isWord = true →
            lex (c :: w ++ mapRuns (hashRun h xs) (s.dropWhile isWord)) =
              actLeaf (c :: w) :: lex (mapRuns (hashRun h xs) (s.dropWhile isWord)) := by
          intro c w hc hw
          have hbl : isBlank c = false := by
            cases hbl : isBlank c with
            | false => rfl
            | true => rw [blank_not_start hbl] at hc; cases hc
          obtain ⟨t1, t2⟩ := takeWhile_run hw hends
          rw [List.cons_append, lex_cons, if_neg (by simp [hbl]), if_neg (start_ne10 hc), if_pos hc, t1, t2]
        by_cases hin : (b :: s.takeWhile isWord) ∈ xs
        · obtain ⟨c, w, he, hc, hw, hres⟩ := name_parts (hh _ hin)
          obtain ⟨_, _, he0, _, _, hres0⟩ := name_parts (hx _ hin)
          rw [show hashRun h xs (b :: s.takeWhile isWord) = h (b :: s.takeWhile isWord) from if_pos hin, he,
            hgen c w hc hw, actLeaf_name hres0, ← he, actLeaf_name hres]
          simp only [Tok.mapName, hashRun, if_pos hin]
        · have e1 : hashRun h xs (b :: s.takeWhile isWord) = b :: s.takeWhile isWord := if_neg hin
          rw [e1, hgen b _ hst (all_takeWhile s)]
          congr 1
          unfold actLeaf
          repeat' split
          all_goals first | rfl | (simp only [Tok.mapName]; rw [e1])
      · have hst : isStart b = false := by simpa using hst
        obtain ⟨m1, m2⟩ := mid_run (h := h) hx hst hs
        rw [m2]
        cases hbl : isBlank b with
        | true => rw [lex_blank hbl, lex_blank hbl]; exact ih s.length (by omega) s m1 rfl
        | false =>
          have hbl' : ¬ isBlank b = true := by simp [hbl]
          have hst' : ¬ isStart b = true := by simp [hst]
          rw [lex_cons, lex_cons, if_neg hbl', if_neg hbl']
          by_cases h10 : b = 10
          · rw [if_pos h10, if_pos h10, List.map_cons, ih s.length (by omega) s m1 rfl]; rfl
          · rw [if_neg h10, if_neg h10, if_neg hst', if_neg hst']
            cases hd : isDigit b with
            | true =>
              obtain ⟨d1, d2, d3⟩ := mid_digits (h := h) hx hh s m1
              have hl := (List.dropWhile_sublist (l := s) isDigit).length_le
              rw [if_pos rfl, if_pos rfl, d2, d3, List.map_cons, ih _ (by omega) _ d1 rfl]
              congr 1
              unfold actUint
              repeat' split
              all_goals rfl
            | false =>
              rw [if_neg (show ¬ false = true by simp), if_neg (show ¬ false = true by simp)]
              have hhead : (mapRuns (hashRun h xs) s).head? = some 61 ↔ s.head? = some 61 := by
                cases s with
                | nil => simp
                | cons c s =>
                  cases hc : isStart c with
                  | true =>
                    obtain ⟨c', t, he, hc'⟩ := start_head (h := h) hh s hc
                    rw [he]
                    simp [start_ne61 hc, start_ne61 hc']
                  | false => rw [(mid_run (h := h) hx hc m1).2]; rfl
              by_cases hcmp : isCmp b = true ∧ s.head? = some 61
              · rw [if_pos ⟨hcmp.1, hhead.mpr hcmp.2⟩, if_pos hcmp]
                cases s with
                | nil => simp at hcmp
                | cons c s =>
                  obtain rfl : c = 61 := by simpa using hcmp.2
                  obtain ⟨k1, k2⟩ := mid_run (h := h) hx (show isStart 61 = false by decide) m1
                  rw [k2, List.tail_cons, List.tail_cons, List.map_cons, ih s.length (by simp at hn; omega) s k1 rfl]
                  congr 1
                  unfold actOp
                  repeat' split
                  all_goals rfl
              · rw [if_neg (fun hc => hcmp ⟨hc.1, hhead.mp hc.2⟩), if_neg hcmp, List.map_cons, ih s.length (by omega) s m1 rfl]
                rfl

theorem effective_mapName (f : Bytes → Bytes) (ts : List Tok) :
    effective (ts.map (Tok.mapName f)) = (effective ts).map (Tok.mapName f) := by
  induction ts with
  | nil => rfl
  | cons t ts ih =>
    have : (t.mapName f).sym = t.sym := by cases t <;> rfl
    unfold effective at ih ⊢
    rw [List.map_cons, List.takeWhile_cons, List.takeWhile_cons, this]
    split
    · rw [List.map_cons, ih]
    · rfl

end Abe
