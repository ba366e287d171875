import Verif.Spec.LibThreads
/-! Threads that only touch their own parts and read shared ones run as if alone. -/
set_option linter.unusedSimpArgs false
set_option linter.unusedSectionVars false
set_option autoImplicit false
namespace Abe
namespace Conc
variable {ob σ α κ : Type}

theorem runAll_append (prog : κ → Prog ob σ α) : ∀ (l : List κ) (s : σ) (k : κ), runAll prog s (l ++ [k]) =
    ((runAll prog s l).1 ++ [((prog k).alone (runAll prog s l).2).1], ((prog k).alone (runAll prog s l).2).2)
  | [], _, _ => rfl
  | x :: l, s, k => by
    have ih := runAll_append prog l ((prog x).alone s).2 k
    simp only [List.cons_append, runAll, ih]

theorem runAll_prefix (prog : κ → Prog ob σ α) : ∀ (l l' : List κ) (s : σ), (runAll prog s l).1 <+: (runAll prog s (l ++ l')).1
  | [], _, _ => List.nil_prefix
  | x :: l, l', s => by
    simp only [List.cons_append, runAll]
    exact (List.prefix_cons_inj _).mpr (runAll_prefix prog l l' _)

/-- Which parts belong to which thread, which are only read, and when two states are the same for a thread. -/
structure Split (ob σ : Type) where
  own : Nat → ob → Prop
  shared : ob → Prop
  agree : Nat → σ → σ → Prop
  refl : ∀ i s, agree i s s
  symm : ∀ i s t, agree i s t → agree i t s
  trans : ∀ i s t u, agree i s t → agree i t u → agree i s u
  apart : ∀ i j o, i ≠ j → own i o → ¬ own j o
  only : ∀ i o, own i o → ¬ shared o

/-- The program touches the parts of thread `i` and reads shared ones. -/
def Local (S : Split ob σ) (i : Nat) : Prog ob σ α → Prop
  | .ret _ => True
  | .act x u n => (S.own i x.obj ∨ (x.write = false ∧ S.shared x.obj)) ∧
      (∀ s t, S.agree i s t → S.agree i (u s) (u t) ∧ n s = n t) ∧
      (∀ j, j ≠ i → ∀ s, S.agree j (u s) s) ∧ ∀ s, Local S i (n s)
  | .lock _ => False
  | .unlock _ => False

/-- Thread `i` as it was alone. -/
def Alone (S : Split ob σ) (prog : κ → Prog ob σ α) (s0 : σ) (todo : List κ) (i : Nat) (evs : List (Event κ α)) (c : Cfg ob σ κ α) : Prop :=
  (∃ past rest, todo = past ++ rest ∧ c.th i = ⟨rest, none⟩ ∧ resultsOf i evs = (runAll prog s0 past).1 ∧
      S.agree i c.st (runAll prog s0 past).2) ∨
  (∃ past k rest p t, todo = past ++ k :: rest ∧ c.th i = ⟨rest, some p⟩ ∧ resultsOf i evs = (runAll prog s0 past).1 ∧
      Local S i p ∧ S.agree i c.st t ∧ p.alone t = (prog k).alone (runAll prog s0 past).2)

theorem results_append (i : Nat) : ∀ (evs : List (Event κ α)) (e : Event κ α), resultsOf i (evs ++ [e]) = resultsOf i evs ++ resultsOf i [e]
  | [], _ => rfl
  | .call _ _ :: evs, e => results_append i evs e
  | .tau _ :: evs, e => results_append i evs e
  | .done j a :: evs, e => by
    have ih := results_append i evs e
    simp only [List.cons_append, resultsOf]
    split
    · rw [ih]; rfl
    · exact ih

variable {S : Split ob σ} {prog : κ → Prog ob σ α} {s0 : σ} {todo : Nat → List κ}

/-- A step of thread `j`. -/
def who : Event κ α → Nat
  | .call i _ => i
  | .done i _ => i
  | .tau i => i

/-- A thread does not notice the steps of others. -/
theorem Alone.other {i : Nat} {evs : List (Event κ α)} {c c' : Cfg ob σ κ α} {e : Event κ α} (h : Alone S prog s0 (todo i) i evs c)
    (he : who e ≠ i) (ht : c'.th i = c.th i) (ha : S.agree i c'.st c.st) : Alone S prog s0 (todo i) i (evs ++ [e]) c' := by
  have hr : resultsOf i (evs ++ [e]) = resultsOf i evs := by
    rw [results_append]
    cases e with
    | done j a => simp only [resultsOf, if_neg (show ¬ j = i from he), List.append_nil]
    | call j k => simp [resultsOf]
    | tau j => simp [resultsOf]
  rcases h with ⟨past, rest, h1, h2, h3, h4⟩ | ⟨past, k, rest, p, t, h1, h2, h3, h4, h5, h6⟩
  · exact .inl ⟨past, rest, h1, ht.trans h2, hr.trans h3, S.trans _ _ _ _ ha h4⟩
  · exact .inr ⟨past, k, rest, p, t, h1, ht.trans h2, hr.trans h3, h4, S.trans _ _ _ _ ha h5, h6⟩

theorem alone_exec (hl : ∀ i, ∀ k ∈ todo i, Local S i (prog k)) {evs : List (Event κ α)} {c : Cfg ob σ κ α}
    (h : Exec prog (start s0 todo) evs c) : ∀ i, Alone S prog s0 (todo i) i evs c := by
  induction h with
  | nil => exact fun i => .inl ⟨[], todo i, rfl, rfl, rfl, S.refl _ _⟩
  | snoc hx hs ih =>
    rename_i evs e c c'
    intro i
    cases hs with
    | call j k ks hj =>
      by_cases hij : i = j
      · subst hij
        rcases ih i with ⟨past, rest, h1, h2, h3, h4⟩ | ⟨past, k', rest, p, t, h1, h2, h3, h4, h5, h6⟩
        · rw [hj] at h2
          cases h2
          refine .inr ⟨past, k, ks, prog k, _, h1, by simp, ?_, hl i k (by rw [h1]; simp), h4, rfl⟩
          rw [results_append, h3]; simp [resultsOf]
        · rw [hj] at h2; cases h2
      · exact (ih i).other (fun he => hij he.symm) (by simp [hij]) (S.refl _ _)
    | act j ks x u n hj =>
      by_cases hij : i = j
      · subst hij
        rcases ih i with ⟨past, rest, h1, h2, h3, h4⟩ | ⟨past, k, rest, p, t, h1, h2, h3, h4, h5, h6⟩
        · rw [hj] at h2; cases h2
        · rw [hj] at h2
          cases h2
          obtain ⟨-, l2, -, l4⟩ := h4
          refine .inr ⟨past, k, ks, n c.st, u t, h1, by simp, ?_, l4 _, (l2 _ _ h5).1, ?_⟩
          · rw [results_append, h3]; simp [resultsOf]
          · rw [(l2 _ _ h5).2]; exact h6
      · refine (ih i).other (fun he => hij he.symm) (by simp [hij]) ?_
        rcases ih j with ⟨past, rest, h1, h2, h3, h4⟩ | ⟨past, k, rest, p, t, h1, h2, h3, h4, h5, h6⟩
        · rw [hj] at h2; cases h2
        · rw [hj] at h2
          cases h2
          exact h4.2.2.1 i hij _
    | lock j ks p hj =>
      rcases ih j with ⟨past, rest, h1, h2, h3, h4⟩ | ⟨past, k, rest, p', t, h1, h2, h3, h4, h5, h6⟩
      · rw [hj] at h2; cases h2
      · rw [hj] at h2; cases h2; exact h4.elim
    | unlock j ks p hj =>
      rcases ih j with ⟨past, rest, h1, h2, h3, h4⟩ | ⟨past, k, rest, p', t, h1, h2, h3, h4, h5, h6⟩
      · rw [hj] at h2; cases h2
      · rw [hj] at h2; cases h2; exact h4.elim
    | done j ks a hj =>
      by_cases hij : i = j
      · subst hij
        rcases ih i with ⟨past, rest, h1, h2, h3, h4⟩ | ⟨past, k, rest, p, t, h1, h2, h3, h4, h5, h6⟩
        · rw [hj] at h2; cases h2
        · rw [hj] at h2
          cases h2
          refine .inl ⟨past ++ [k], ks, by rw [h1]; simp, by simp, ?_, ?_⟩
          · rw [results_append, h3, runAll_append, ← h6]; simp [resultsOf, Prog.alone]
          · rw [runAll_append, ← h6]; exact h5
      · exact (ih i).other (fun he => hij he.symm) (by simp [hij]) (S.refl _ _)

/-- Every thread gets what it gets alone. -/
theorem alone_results (hl : ∀ i, ∀ k ∈ todo i, Local S i (prog k)) {evs : List (Event κ α)} {c : Cfg ob σ κ α}
    (h : Exec prog (start s0 todo) evs c) (i : Nat) : resultsOf i evs <+: (runAll prog s0 (todo i)).1 := by
  rcases alone_exec hl h i with ⟨past, rest, h1, -, h3, -⟩ | ⟨past, k, rest, p, t, h1, -, h3, -⟩
  · rw [h1, h3]; exact runAll_prefix prog _ _ _
  · rw [h1, h3]; exact runAll_prefix prog _ _ _

/-- There is no data race. -/
theorem alone_no_race (hl : ∀ i, ∀ k ∈ todo i, Local S i (prog k)) {evs : List (Event κ α)} {c : Cfg ob σ κ α}
    (h : Exec prog (start s0 todo) evs c) : ¬ Race c := by
  rintro ⟨i, j, ks, ls, x, y, u, v, n, m, hij, hi, hj, hxy, hw⟩
  have key : ∀ i ks x u n, c.th i = ⟨ks, some (.act x u n)⟩ → S.own i x.obj ∨ (x.write = false ∧ S.shared x.obj) := by
    intro i ks x u n hi
    rcases alone_exec hl h i with ⟨_, _, _, h2, _⟩ | ⟨_, _, _, _, _, _, h2, _, h4, _⟩
    · rw [hi] at h2; cases h2
    · rw [hi] at h2; cases h2; exact h4.1
  rcases key i ks x u n hi with h1 | ⟨h1, h1'⟩ <;> rcases key j ls y v m hj with h2 | ⟨h2, h2'⟩
  · exact S.apart i j _ hij h1 (hxy ▸ h2)
  · exact S.only i _ h1 (hxy ▸ h2')
  · exact S.only j _ h2 (hxy ▸ h1')
  · rcases hw with hw | hw
    · rw [h1] at hw; cases hw
    · rw [h2] at hw; cases hw

end Conc
end Abe
