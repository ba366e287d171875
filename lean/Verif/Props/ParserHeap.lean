import Verif.Proof.ParserHeapRun

/-!
# The parser's memory: property C119
-/

set_option linter.unusedSimpArgs false
set_option linter.unusedSectionVars false
set_option autoImplicit false

namespace Abe
namespace PH

/-! ### Facts about results -/

theorem parse_kinds (mk : Mktime) (b : Bool) (s : Bytes) :
    (∃ acc d, parseString mk b s = .ok (acc, d)) ∨ (parseString mk b s = .ub ∧
      ∃ c : CondSyn, c.valid = true ∧ c.toks <:+: lex s ∧ c.BadDate mk) := by
  cases b with
  | true =>
    have hg := parseString_policy_good (mk := mk) s
    cases hp : parseString mk true s with
    | throw e => rw [hp] at hg; exact hg.elim
    | abort => rw [hp] at hg; exact hg.elim
    | ub =>
      rw [hp] at hg
      obtain ⟨c, h1, h2, h3⟩ := hg
      obtain ⟨x, r, hx⟩ := c.head
      exact Or.inr ⟨rfl, c, h1, infix_cons_ne (by simp [hx]) (by simp [hx]) h2, h3⟩
    | ok x => exact Or.inl ⟨x.1, x.2, rfl⟩
  | false =>
    have hg := parseString_attrs_good (mk := mk) s
    cases hp : parseString mk false s with
    | throw e => rw [hp] at hg; exact hg.elim
    | abort => rw [hp] at hg; exact hg.elim
    | ub =>
      rw [hp] at hg
      obtain ⟨c, h1, h2, h3⟩ := hg
      obtain ⟨x, r, hx⟩ := c.head
      exact Or.inr ⟨rfl, c, h1, infix_cons_ne (by simp [hx]) (by simp [hx]) h2, h3⟩
    | ok x => exact Or.inl ⟨x.1, x.2, rfl⟩

theorem accepted_policy {mk : Mktime} {s : Bytes} {d : Drv} (h : parseString mk true s = .ok (true, d)) : d.policy ≠ none := by
  have hg := parseString_policy_good (mk := mk) s
  have hs := h
  rw [h] at hg
  obtain ⟨ts, hts, ⟨e, he, hT⟩ | ⟨a, _, _, hT⟩⟩ := hg
  · obtain ⟨n1, n2, n3⟩ := e.norm_spec
    have heff : effective (lex s) = e.norm.toks := by
      rw [n1]
      simp only [List.cons.injEq, true_and] at hT
      rw [hT]
      exact effective_append e.sym_ne hts
    rw [parseString_policy n2 (by rw [n3]; exact he) s heff] at hs
    cases hev : e.norm.eval mk { input := s } with
    | ok x =>
      rw [hev] at hs
      have hs : Res.ok (true, setPolicy x.2 x.1) = Res.ok (true, d) := hs
      cases hs
      simp [setPolicy]
    | _ => rw [hev] at hs; cases hs
  · cases hT

theorem rejected_policy {mk : Mktime} {b : Bool} {s : Bytes} {d : Drv} (h : parseString mk b s = .ok (false, d)) :
    b = true → d.policy = none := by
  rintro rfl
  have hg := parseString_policy_good (mk := mk) s
  rw [h] at hg
  simpa [PGood] using hg

theorem live_of {h : Heap} {P : Items} {L : Loss} (e : Holds h P L) : ∃ fp, Reps h P fp ∧ h.live.Perm (fp ++ addrs L) := by
  obtain ⟨fp, e1, e2, e3, e4⟩ := e
  refine ⟨fp, e1, ?_⟩
  rw [List.perm_ext_iff_of_nodup (live_nodup h) e2]
  intro a
  rw [mem_live, e3]

/-! ### C119 -/

/-- **C119 (memory errors).** The parser on a heap gives the same answer and leaves the same driver as the parser on values,
for every text. It is undefined only where the parser on values is: every string, number, list and node that the scanner, the
actions, the destructors of the error recovery and `Driver::error` read or release is there and has the right type, also when
words of the union are stale. -/
theorem C119_same_answers (mk : Mktime) (isPolicy : Bool) (s : Bytes) :
    (parseHeap mk isPolicy s = .ub ↔ parseString mk isPolicy s = .ub) ∧
    ∀ acc d, parseString mk isPolicy s = .ok (acc, d) → ∃ st, parseHeap mk isPolicy s = .ok (acc, st) ∧
      st.drv = { d with policy := d.policy.map fun p => { p with root := none } } := by
  obtain ⟨h1, h2⟩ := parse_sim mk isPolicy s
  refine ⟨⟨?_, h2⟩, ?_⟩
  · intro h
    rcases parse_kinds mk isPolicy s with ⟨acc, d, hk⟩ | ⟨hk, -⟩
    · obtain ⟨st, e1, -⟩ := h1 acc d hk
      rw [h] at e1; cases e1
    · exact hk
  · intro acc d h
    obtain ⟨st, e1, e2, -⟩ := h1 acc d h
    exact ⟨st, e1, e2⟩

/-- **C119 (definedness).** The parser on a heap returns for every text, unless the text contains a date condition whose time
is out of range. -/
theorem C119_defined (mk : Mktime) (isPolicy : Bool) (s : Bytes) :
    (∃ acc st, parseHeap mk isPolicy s = .ok (acc, st)) ∨
      (parseHeap mk isPolicy s = .ub ∧ ∃ c : CondSyn, c.valid = true ∧ c.toks <:+: lex s ∧ c.BadDate mk) := by
  obtain ⟨h1, h2⟩ := parse_sim mk isPolicy s
  rcases parse_kinds mk isPolicy s with ⟨acc, d, hk⟩ | ⟨hk, hc⟩
  · obtain ⟨st, e1, -⟩ := h1 acc d hk
    exact Or.inl ⟨acc, st, e1⟩
  · exact Or.inr ⟨h2 hk, hc⟩

/-- **C119 (accepted policies).** After an accepted policy, the objects that exist are the nodes of the policy's tree, each
once, and nothing else: every string, number and list is released. -/
theorem C119_accepted_policy (mk : Mktime) (s : Bytes) (d : Drv) (h : parseString mk true s = .ok (true, d)) :
    ∃ st p t a fp, parseHeap mk true s = .ok (true, st) ∧ d.policy = some p ∧ p.root = some t ∧ st.root = some a ∧
      TreeAt st.heap t a fp ∧ st.heap.live.Perm fp ∧ st.heap.live.length = nodes t := by
  obtain ⟨st, e1, e2, R, L, e3, e4, e5, -⟩ := (parse_sim mk true s).1 true d h
  have hL := e5 rfl
  subst hL
  rcases e3 with ⟨h0, -⟩ | ⟨p, t, a, k1, k2, k3, rfl⟩
  · exact absurd h0 (accepted_policy h)
  · obtain ⟨fp, hf, hl⟩ := live_of e4
    simp only [addrs, List.map_nil, List.append_nil] at hl
    obtain ⟨f, fs, ⟨a', ha', ht⟩, hfs, rfl⟩ := hf
    simp only [Reps] at hfs
    subst hfs
    simp only [List.append_nil] at hl
    cases ha'
    exact ⟨st, p, t, a, f, e1, k1, k2, k3, ht, hl, by rw [hl.length_eq, ht.length]⟩

/-- **C119 (accepted attribute lists).** After an accepted attribute list no object is left. -/
theorem C119_accepted_attributes (mk : Mktime) (s : Bytes) (d : Drv) (h : parseString mk false s = .ok (true, d)) :
    ∃ st, parseHeap mk false s = .ok (true, st) ∧ st.heap.live = [] := by
  obtain ⟨st, e1, e2, R, L, e3, e4, e5, e6⟩ := (parse_sim mk false s).1 true d h
  have hL := e5 rfl
  subst hL
  refine ⟨st, e1, ?_⟩
  rcases e3 with ⟨-, -, rfl⟩ | ⟨p, t, a, k1, -⟩
  · obtain ⟨fp, hf, hl⟩ := live_of e4
    simp only [Reps] at hf
    subst hf
    simpa [addrs] using hl
  · rw [(e6 rfl).1] at k1; cases k1

/-- **C119 (partial: rejected texts).** What a rejected text leaves behind are tree nodes and strings of reserved names
(names with `expint`), never another string, a number or a list. -/
theorem C119_rejected_partial (mk : Mktime) (isPolicy : Bool) (s : Bytes) (d : Drv)
    (h : parseString mk isPolicy s = .ok (false, d)) : ∃ st, parseHeap mk isPolicy s = .ok (false, st) ∧
      ∀ a ∈ st.heap.live, (∃ r tag kids, st.heap.get a = some (.node r tag kids)) ∨
        ∃ n, st.heap.get a = some (.str n) ∧ hasSub b!"expint" n = true := by
  obtain ⟨st, e1, e2, R, L, e3, e4, -, e6⟩ := (parse_sim mk isPolicy s).1 false d h
  refine ⟨st, e1, ?_⟩
  have hR : R = [] := by
    rcases e3 with ⟨-, -, rfl⟩ | ⟨p, t, a, k1, -⟩
    · rfl
    · cases isPolicy with
      | true => rw [rejected_policy h rfl] at k1; cases k1
      | false => rw [(e6 rfl).1] at k1; cases k1
  subst hR
  obtain ⟨fp, hf, k2, k3, k4⟩ := e4
  simp only [Reps] at hf
  subst hf
  intro a ha
  have hm : a ∈ addrs L := by
    have := (k3 a).mp ((mem_live _ _).mp ha)
    simpa using this
  obtain ⟨p, hp, rfl⟩ := List.mem_map.mp hm
  have := k4 p hp
  unfold LostIs at this
  split at this
  · exact Or.inl this
  · exact Or.inr ⟨_, this⟩

/-- **C119 (partial: rejected attribute lists).** A rejected attribute list without a token in error (a reserved name, or an
integer out of range) leaves nothing; with one, only strings. -/
theorem C119_rejected_attributes_partial (mk : Mktime) (s : Bytes) (d : Drv) (h : parseString mk false s = .ok (false, d)) :
    ∃ st, parseHeap mk false s = .ok (false, st) ∧ (Tok.error ∉ lex s → st.heap.live = []) ∧
      ∀ a ∈ st.heap.live, ∃ n, st.heap.get a = some (.str n) ∧ hasSub b!"expint" n = true := by
  obtain ⟨st, e1, e2, R, L, e3, e4, -, e6⟩ := (parse_sim mk false s).1 false d h
  refine ⟨st, e1, ?_⟩
  obtain ⟨h1, h2, h3⟩ := e6 rfl
  have hR : R = [] := by
    rcases e3 with ⟨-, -, rfl⟩ | ⟨p, t, a, k1, -⟩
    · rfl
    · rw [h1] at k1; cases k1
  subst hR
  obtain ⟨fp, hf, hl⟩ := live_of e4
  obtain ⟨_, _, _, _, k4⟩ := e4
  simp only [Reps] at hf
  subst hf
  constructor
  · intro hne
    have hL : L = [] := by
      by_contra hL
      exact hne (h3 hL)
    subst hL
    simpa [addrs] using hl
  · intro a ha
    have hm : a ∈ addrs L := by simpa using hl.mem_iff.mp ha
    obtain ⟨p, hp, rfl⟩ := List.mem_map.mp hm
    have hk := k4 p hp
    have hn := h2 p hp
    unfold LostIs at hk
    split at hk
    · rename_i hnone; exact absurd hnone hn
    · exact ⟨_, hk⟩

/-- **C119 (violated: a dropped policy leaks).** Deleting the tree of any accepted policy releases its root only: all other
nodes stay, so that every policy with a gate leaks. -/
theorem C119_dropped_policy_violated (mk : Mktime) (s : Bytes) (d : Drv) (h : parseString mk true s = .ok (true, d)) :
    ∃ st p t a h', parseHeap mk true s = .ok (true, st) ∧ d.policy = some p ∧ p.root = some t ∧ st.root = some a ∧
      delTree st.heap (.ptr a) = .ok h' ∧ h'.live.length + 1 = nodes t := by
  obtain ⟨st, e1, e2, R, L, e3, e4, e5, -⟩ := (parse_sim mk true s).1 true d h
  have hL := e5 rfl
  subst hL
  rcases e3 with ⟨h0, -⟩ | ⟨p, t, a, k1, k2, k3, rfl⟩
  · exact absurd h0 (accepted_policy h)
  · obtain ⟨h', M, d1, f1, f2, -⟩ := holds_delTree e4
    obtain ⟨fp, hf, hl⟩ := live_of f1
    simp only [Reps] at hf
    subst hf
    refine ⟨st, p, t, a, h', e1, k1, k2, k3, d1, ?_⟩
    rw [hl.length_eq]
    simpa [addrs] using f2

/-- Did the parser accept, and the number of objects that are left. -/
def outcome (mk : Mktime) (isPolicy : Bool) (s : Bytes) : Option (Bool × Nat) :=
  match parseHeap mk isPolicy s with
  | .ok (acc, st) => some (acc, st.heap.live.length)
  | _ => none

/-- **C119 (violated: rejected policies leak).** The leaves of a gate stay when the rest of the text is rejected. -/
theorem C119_rejected_policy_violated : outcome (fun tm => (0, tm)) true b!"a and b )" = some (false, 2) := by
  decide +kernel

/-- **C119 (violated: reserved names leak).** The scanner does not release the string of a reserved name (zscanner.cpp:844-846),
and the token has no destructor. -/
theorem C119_reserved_name_violated : outcome (fun tm => (0, tm)) false b!"expint" = some (false, 1) := by
  decide +kernel

/-- The hypotheses hold for accepted and rejected texts of both kinds. -/
example : outcome (fun tm => (0, tm)) true b!"a and (b or c)" = some (true, 5) ∧
    outcome (fun tm => (0, tm)) false b!"a | b | c = 7" = some (true, 0) ∧
    outcome (fun tm => (0, tm)) false b!"a | b | c = " = some (false, 0) ∧
    outcome (fun tm => (0, tm)) true b!"a )" = some (false, 0) := by
  decide +kernel

end PH
end Abe
