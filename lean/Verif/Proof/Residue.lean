import Verif.Spec.Residue
import Verif.Props.Scheme
/-! # C130: lemmas on what is left in memory -/
set_option linter.unusedSimpArgs false
set_option linter.unusedSectionVars false
set_option autoImplicit false
namespace Abe
namespace Residue
open Live Vec

/-- The computation gives `r` and leaves the blocks `l`, whatever was left before. -/
def Emits {α : Type} (m : Left α) (r : Res α) (l : List Block) : Prop := ∀ g, m g = (r, g ++ l)

theorem Emits.left {α : Type} {m : Left α} {r : Res α} {l : List Block} (h : Emits m r l) : left m = l := by
  unfold Residue.left; rw [h []]; rfl

theorem Emits.result {α : Type} {m : Left α} {r : Res α} {l : List Block} (h : Emits m r l) : result m = r := by
  unfold Residue.result; rw [h []]

theorem Emits.pure {α : Type} (a : α) : Emits (pure a : Left α) (.ok a) [] := fun g => by
  show (Res.ok a, g) = _
  simp

theorem Emits.lift {α : Type} (r : Res α) : Emits (Live.lift r : Left α) r [] := fun g => by
  simp [Live.lift]

theorem Emits.bind {α β : Type} {m : Left α} {f : α → Left β} {a : α} {r : Res β} {l l' : List Block}
    (h : Emits m (.ok a) l) (h' : Emits (f a) r l') : Emits (m >>= f) r (l ++ l') := fun g => by
  show Mut.bind m f g = _
  unfold Mut.bind
  rw [h g]
  simp only
  rw [h' (g ++ l), List.append_assoc]

theorem Emits.bind' {α β : Type} {m : Left α} {f : α → Left β} {a : α} {r0 : Res α} {r : Res β} {l l' : List Block}
    (h : Emits m r0 l) (h0 : r0 = .ok a) (h' : Emits (f a) r l') : Emits (m >>= f) r (l ++ l') := (h0 ▸ h).bind h'

theorem Emits.drop (v : Vec) : Emits v.drop (.ok ()) [v.block] := fun _ => rfl

theorem Emits.scope {α : Type} {m : Left α} {r : Res α} {l : List Block} (v : Vec) (h : Emits m r l) :
    Emits (v.scope m) r (l ++ [v.block]) := fun g => by
  unfold Vec.scope
  rw [h g, List.append_assoc]

/-- The vector has the elements `a`. -/
def Holds (v : Vec) (a : Bytes) : Prop := v.size = a.length ∧ ∃ r, v.block = a.map some ++ r

/-- Nothing but zeros behind the elements. -/
def Tidy (v : Vec) : Prop := Clean (v.block.drop v.size)

theorem holds_nil : Holds {} [] := ⟨rfl, [], rfl⟩
theorem tidy_nil : Tidy {} := by simp [Tidy, Clean]
theorem holds_copy (b : Bytes) : Holds (copy b) b := ⟨rfl, [], by simp [copy]⟩
theorem tidy_copy (b : Bytes) : Tidy (copy b) := by
  unfold Tidy copy
  simp only
  rw [List.drop_of_length_le (by simp)]
  simp [Clean]

theorem clean_none (n : Nat) : Clean (List.replicate n none) := by
  intro c hc
  exact .inl (List.eq_of_mem_replicate hc)

theorem Clean.sublist {a b : Block} (h : Clean a) (hs : b.Sublist a) : Clean b := fun c hc => h c (hs.subset hc)

theorem take_holds {v : Vec} {a : Bytes} (h : Holds v a) : v.block.take v.size = a.map some := by
  obtain ⟨h1, r, h2⟩ := h
  rw [h1, h2, List.take_append_of_le_length (by simp), List.take_of_length_le (by simp)]

theorem append_emits (gr : Grow) {v : Vec} {a : Bytes} (h : Holds v a) (b : Bytes) :
    ∃ v' l, Emits (append gr v b) (.ok v') l ∧ Holds v' (a ++ b) ∧ (Tidy v → Tidy v') ∧ ∀ x ∈ l, x = v.block := by
  have ht := take_holds h
  have hs := h.1
  by_cases hc : v.size + b.length ≤ v.block.length
  · refine ⟨⟨v.block.take v.size ++ b.map some ++ v.block.drop (v.size + b.length), v.size + b.length⟩, [],
      fun g => by simp [append, hc], ⟨by simp [hs], v.block.drop (v.size + b.length), by rw [ht]; simp⟩, ?_, by simp⟩
    intro hv
    unfold Tidy at hv ⊢
    simp only
    have hlen : (v.block.take v.size ++ b.map some).length = v.size + b.length := by
      rw [ht]; simp [hs]
    rw [List.drop_append_of_le_length (by omega), List.drop_of_length_le (by omega), List.nil_append, Nat.add_comm v.size, ← List.drop_drop]
    refine hv.sublist ?_
    rw [List.drop_drop, Nat.add_comm, ← List.drop_drop]
    exact List.drop_sublist _ _
  · refine ⟨⟨v.block.take v.size ++ b.map some ++ List.replicate (gr.fn v.size b.length - (v.size + b.length)) none, v.size + b.length⟩,
      [v.block], fun g => by simp [append, hc], ⟨by simp [hs], List.replicate (gr.fn v.size b.length - (v.size + b.length)) none,
        by rw [ht]; simp⟩, ?_, by simp⟩
    intro _
    unfold Tidy
    simp only
    have hlen : (v.block.take v.size ++ b.map some).length = v.size + b.length := by
      rw [ht]; simp [hs]
    rw [List.drop_append_of_le_length (by omega), List.drop_of_length_le (by omega), List.nil_append]
    exact clean_none _

theorem insertFirst_emits (gr : Grow) {v : Vec} {a : Bytes} (h : Holds v a) (x : UInt8) :
    ∃ v' l, Emits (insertFirst gr v x) (.ok v') l ∧ Holds v' (x :: a) := by
  have ht := take_holds h
  have hs := h.1
  by_cases hc : v.size + 1 ≤ v.block.length
  · exact ⟨_, [], fun g => by simp only [insertFirst, hc, if_true, List.append_nil]; rfl,
      by simp [hs], v.block.drop (v.size + 1), by simp [ht]⟩
  · exact ⟨_, [v.block], fun g => by simp only [insertFirst, hc, if_false]; rfl,
      by simp [hs], List.replicate (gr.fn v.size 1 - (v.size + 1)) none, by simp [ht]⟩

theorem zeroize_clean {v : Vec} (h : Tidy v) : Clean v.zeroize.block := by
  intro c hc
  simp only [zeroize, List.mem_append] at hc
  rcases hc with hc | hc
  · exact .inr (List.eq_of_mem_replicate hc)
  · exact h c hc

theorem zeros_clean (n : Nat) : Clean ((List.replicate n (0 : UInt8)).map some) := by
  intro c hc
  simp only [List.map_replicate] at hc
  exact .inr (List.eq_of_mem_replicate hc)

theorem Clean.append {a b : Block} (ha : Clean a) (hb : Clean b) : Clean (a ++ b) := by
  intro c hc
  rcases List.mem_append.mp hc with h | h
  · exact ha c h
  · exact hb c h

theorem fill_emits (gr : Grow) : ∀ (n k : Nat) {v : Vec}, Holds v (List.replicate k 0) → Tidy v →
    ∃ v' l, Emits (fill gr n v) (.ok v') l ∧ Holds v' (List.replicate (k + n) 0) ∧ Tidy v' ∧ ∀ x ∈ l, Clean x
  | 0, k, v, h, ht => ⟨v, [], Emits.pure v, h, ht, by simp⟩
  | n + 1, k, v, h, ht => by
    obtain ⟨v1, l1, e1, h1, t1, c1⟩ := append_emits gr h [0]
    have hk : List.replicate k (0 : UInt8) ++ [0] = List.replicate (k + 1) 0 := by
      rw [List.replicate_succ']
    rw [hk] at h1
    obtain ⟨v2, l2, e2, h2, t2, c2⟩ := fill_emits gr n (k + 1) h1 (t1 ht)
    refine ⟨v2, l1 ++ l2, e1.bind e2, by rw [show k + (n + 1) = k + 1 + n by omega]; exact h2, t2, ?_⟩
    intro x hx
    rcases List.mem_append.mp hx with hx | hx
    · rw [c1 x hx]
      obtain ⟨r, hr⟩ := h.2
      have : v.block.drop v.size = r := by
        rw [h.1, hr, List.drop_append_of_le_length (by simp), List.drop_of_length_le (by simp), List.nil_append]
      rw [hr]
      refine Clean.append (zeros_clean k) ?_
      rw [← this]
      exact ht
    · exact c2 x hx

theorem overwrite_holds {v : Vec} {a b : Bytes} (h : Holds v a) (hl : b.length = a.length) : Holds (v.overwrite b) b := by
  refine ⟨h.1.trans hl.symm, v.block.drop b.length, rfl⟩

theorem smartPack_emits (gr : Grow) {v : Vec} {a : Bytes} (h : Holds v a) (b : Bytes) :
    ∃ v' l, Emits (smartPack gr v b) (.ok v') l ∧ Holds v' (BS.smartPack a b) := by
  unfold smartPack BS.smartPack
  by_cases c1 : 65535 < b.length
  · obtain ⟨v1, l1, e1, h1, -, -⟩ := append_emits gr h [0xC3]
    obtain ⟨v2, l2, e2, h2, -, -⟩ := append_emits gr h1 (BS.be32 b.length)
    obtain ⟨v3, l3, e3, h3, -, -⟩ := append_emits gr h2 b
    rw [if_pos c1, if_pos c1]
    exact ⟨v3, _, e1.bind (e2.bind e3), h3⟩
  · by_cases c2 : 255 < b.length
    · obtain ⟨v1, l1, e1, h1, -, -⟩ := append_emits gr h [0xB2]
      obtain ⟨v2, l2, e2, h2, -, -⟩ := append_emits gr h1 (BS.be16 b.length)
      obtain ⟨v3, l3, e3, h3, -, -⟩ := append_emits gr h2 b
      rw [if_neg c1, if_neg c1, if_pos c2, if_pos c2]
      exact ⟨v3, _, e1.bind (e2.bind e3), h3⟩
    · by_cases c3 : 0 < b.length
      · obtain ⟨v1, l1, e1, h1, -, -⟩ := append_emits gr h [0xA1]
        obtain ⟨v2, l2, e2, h2, -, -⟩ := append_emits gr h1 [UInt8.ofNat b.length]
        obtain ⟨v3, l3, e3, h3, -, -⟩ := append_emits gr h2 b
        rw [if_neg c1, if_neg c1, if_neg c2, if_neg c2, if_pos c3, if_pos c3]
        exact ⟨v3, _, e1.bind (e2.bind e3), h3⟩
      · obtain ⟨v3, l3, e3, h3, -, -⟩ := append_emits gr h b
        rw [if_neg c1, if_neg c1, if_neg c2, if_neg c2, if_neg c3, if_neg c3]
        exact ⟨v3, _, (Emits.pure v).bind e3, h3⟩

/-- What can be read in a block that holds bytes. -/
theorem readable_of {v : Vec} {a p s : Bytes} {g : List Block} (h : Holds v (p ++ s ++ a)) (hm : v.block ∈ g) : Readable s g := by
  obtain ⟨_, r, hr⟩ := h
  exact ⟨v.block, hm, p.map some, a.map some ++ r, by rw [hr]; simp⟩

theorem Readable.mono {s : Bytes} {g g' : List Block} (h : Readable s g) (hs : ∀ b ∈ g, b ∈ g') : Readable s g' := by
  obtain ⟨b, hb, r⟩ := h
  exact ⟨b, hs b hb, r⟩

/-! ### Keys -/

theorem setKey_emits {v : Vec} {k : Bytes} (hk : k.length = 16 ∨ k.length = 32) :
    ∃ v' l, Emits (setKey v k) (.ok v') l ∧ Holds v' k ∧ (∀ x ∈ l, x = v.block) ∧
      (Tidy v → v.size ≤ k.length → Tidy v') ∧ (v.block.length < k.length → l = [v.block]) ∧
      (k.length ≤ v.block.length → v'.block = k.map some ++ v.block.drop k.length) := by
  have hn : ¬ (k.length ≠ 16 ∧ k.length ≠ 32) := by omega
  unfold setKey
  rw [if_neg hn]
  by_cases hc : k.length ≤ v.block.length
  · refine ⟨⟨k.map some ++ v.block.drop k.length, k.length⟩, [], fun g => by simp [assign, clear, hc], ⟨rfl, _, rfl⟩, by simp, ?_,
      fun h => by omega, fun _ => rfl⟩
    intro hv hsz
    unfold Tidy at hv ⊢
    simp only
    rw [List.drop_append_of_le_length (by simp), List.drop_of_length_le (by simp), List.nil_append]
    refine hv.sublist ?_
    rw [show k.length = v.size + (k.length - v.size) by omega, ← List.drop_drop]
    exact List.drop_sublist _ _
  · exact ⟨copy k, [v.block], fun g => by simp [assign, clear, hc], holds_copy k, by simp, fun _ _ => tidy_copy k, fun _ => rfl,
      fun h => absurd h hc⟩

theorem kdf2_emits (gr : Grow) {kdf : Nat → Bytes → Bytes} {h : Bytes} {len : Nat} (hh : h.length ≠ 0) (hl : len ≠ 0)
    (hk : (kdf len h).length = len) : ∃ v l, Emits (kdf2 gr kdf h len) (.ok v) l ∧ Holds v (kdf len h) := by
  unfold kdf2
  rw [if_neg hh, if_neg hl]
  obtain ⟨v, l, e, hv, -, -⟩ := fill_emits gr len 0 (v := {}) holds_nil tidy_nil
  have hlen : (kdf len h).length = (List.replicate (0 + len) (0 : UInt8)).length := by rw [hk]; simp
  exact ⟨_, _, e.bind (Emits.pure _), overwrite_holds hv hlen⟩

theorem gtHash_emits (gr : Grow) (md : Bytes → Bytes) (w : Bytes) :
    ∃ l, Emits (gtHash gr md w) (.ok (md (groupSerialize 0xB4 w))) l ∧ Readable w l := by
  obtain ⟨v1, l1, e1, h1, -, -⟩ := append_emits gr (v := {}) holds_nil w
  obtain ⟨v2, l2, e2, h2⟩ := insertFirst_emits gr (v := {}) holds_nil 0xB4
  obtain ⟨v3, l3, e3, h3⟩ := smartPack_emits gr h2 w
  have hs : Emits (gtSerialize gr w) (.ok v3) _ := (Emits.drop (copy w)).bind (e1.bind ((e2.bind e3).scope v1))
  refine ⟨_, hs.bind ((Emits.pure _).scope v3), ?_⟩
  exact ⟨(copy w).block, by simp, [], [], by simp [copy]⟩

variable {G1 G2 GT : Type}

/-- Deriving the session key leaves it, and what it is derived from. -/
theorem hashToKey_emits (gr : Grow) (env : Env G1 G2 GT) (x : GT) (hmd : ∀ b, (env.md b).length = 32)
    (hkdf : ∀ n b, (env.kdf n b).length = n) :
    ∃ K v l, Scheme.symKeyOf env x 32 = .ok K ∧ Emits (hashToKey gr env {} x 32) (.ok (K, v)) l ∧ Tidy v ∧ Readable K l ∧
      Readable (env.wT x) l := by
  obtain ⟨l1, e1, r1⟩ := gtHash_emits gr env.md (env.wT x)
  set h := env.md (groupSerialize 0xB4 (env.wT x)) with hh
  have hl : h.length ≠ 0 := by rw [hh, hmd]; decide
  obtain ⟨v2, l2, e2, h2, -, -⟩ := append_emits gr (v := {}) holds_nil h
  obtain ⟨v3, l3, e3, h3⟩ := kdf2_emits gr (kdf := env.kdf) (len := 32) hl (by decide) (hkdf _ _)
  obtain ⟨v4, l4, e4, h4, -, t4, -, -⟩ := setKey_emits (v := {}) (k := env.kdf 32 h) (.inr (hkdf _ _))
  refine ⟨env.kdf 32 h, v4, _, rfl, e1.bind ((Emits.drop (copy h)).bind (e2.bind
    ((e3.bind ((Emits.bind (f := fun v => pure (env.kdf 32 h, v)) e4 (Emits.pure _)).scope v3)).scope v2))), t4 tidy_nil (by simp), ?_, ?_⟩
  · exact (readable_of (p := []) (a := []) (g := [v3.block]) (by simpa using h3) (by simp)).mono (by simp)
  · exact r1.mono (fun b hb => by simp [hb])

/-- The mask: its vector has nothing behind its elements. -/
theorem hashFrom_emits (gr : Grow) (md : Bytes → Bytes) (buf : Bytes) (n : Nat) (pre : UInt8) :
    ∃ v l, Emits (hashFrom gr md buf n pre) (.ok (Scheme.hashFromBytes md buf n pre, v)) l ∧ Tidy v ∧ Readable buf l := by
  obtain ⟨v1, l1, e1, h1⟩ := insertFirst_emits gr (holds_copy buf) pre
  obtain ⟨v2, l2, e2, h2⟩ := insertFirst_emits gr h1 0
  obtain ⟨v3, l3, e3, h3, t3, -⟩ := append_emits gr (v := {}) holds_nil (Scheme.hashFromBytes md buf n pre)
  refine ⟨v3, _, e1.bind (e2.bind ((Emits.bind (f := fun b => pure (Scheme.hashFromBytes md buf n pre, b)) e3 (Emits.pure _)).scope _)), t3 tidy_nil, ?_⟩
  obtain ⟨hs, r, hr⟩ := h2
  refine ⟨(v2.overwrite [UInt8.ofNat ((n + 31) / 32)]).block, by simp, [some (UInt8.ofNat ((n + 31) / 32)), some pre], r, ?_⟩
  simp [overwrite, hr]

theorem encryptTail_emits (gr : Grow) (env : Env G1 G2 GT) (x : GT) (plaintext : Bytes) (hmd : ∀ b, (env.md b).length = 32)
    (hkdf : ∀ n b, (env.kdf n b).length = n) :
    ∃ K ct l1 l2 l3, Scheme.symKeyOf env x 32 = .ok K ∧
      BS.xorAssign plaintext (Scheme.hashFromBytes env.md K plaintext.length Scheme.schemeHashPrefix) = .ok ct ∧
      Emits (encryptTail gr env x plaintext) (.ok ct) (l1 ++ (l2 ++ l3)) ∧
      left (hashToKey gr env {} x 32) = l1 ∧ left (hashFrom gr env.md K plaintext.length Scheme.schemeHashPrefix) = l2 ∧
      Readable K l1 ∧ Readable (env.wT x) l1 ∧ Readable K l2 ∧ (∀ b ∈ l3, Clean b ∨ b = ct.map some) := by
  obtain ⟨K, kv, l1, hK, e1, t1, r1, r1'⟩ := hashToKey_emits gr env x hmd hkdf
  obtain ⟨mv, l2, e2, t2, r2⟩ := hashFrom_emits gr env.md K plaintext.length Scheme.schemeHashPrefix
  obtain ⟨ct, hct, -, -⟩ := Scheme.mask_xor hmd K plaintext
  refine ⟨K, ct, l1, l2, _, hK, hct, e1.bind (e2.bind ((Emits.lift _).bind' hct ((Emits.drop mv.zeroize).bind
    ((Emits.drop (copy ct)).bind ((Emits.drop kv.zeroize).bind (Emits.pure ct)))))), e1.left, e2.left, r1, r1', r2, ?_⟩
  intro b hb
  simp only [List.cons_append, List.nil_append, List.append_nil, List.mem_cons, List.not_mem_nil, or_false] at hb
  rcases hb with rfl | rfl | rfl
  · exact .inl (zeroize_clean t2)
  · exact .inr rfl
  · exact .inl (zeroize_clean t1)

theorem decryptTail_emits (gr : Grow) (env : Env G1 G2 GT) (x : GT) (data : Bytes) (hmd : ∀ b, (env.md b).length = 32)
    (hkdf : ∀ n b, (env.kdf n b).length = n) :
    ∃ K pt l1 l2 l3, Scheme.symKeyOf env x 32 = .ok K ∧
      BS.xorAssign data (Scheme.hashFromBytes env.md K data.length Scheme.schemeHashPrefix) = .ok pt ∧
      Emits (decryptTail gr env x data) (.ok pt) (l1 ++ (l2 ++ l3)) ∧
      left (hashToKey gr env {} x 32) = l1 ∧ left (hashFrom gr env.md K data.length Scheme.schemeHashPrefix) = l2 ∧
      Readable K l1 ∧ Readable (env.wT x) l1 ∧ Readable K l2 ∧ (∀ b ∈ l3, Clean b) := by
  obtain ⟨K, kv, l1, hK, e1, t1, r1, r1'⟩ := hashToKey_emits gr env x hmd hkdf
  obtain ⟨mv, l2, e2, t2, r2⟩ := hashFrom_emits gr env.md K data.length Scheme.schemeHashPrefix
  obtain ⟨pt, hpt, -, -⟩ := Scheme.mask_xor hmd K data
  refine ⟨K, pt, l1, l2, _, hK, hpt, e1.bind (e2.bind ((Emits.lift _).bind' hpt ((Emits.drop mv.zeroize).bind
    ((Emits.drop kv.zeroize).bind (Emits.pure pt))))), e1.left, e2.left, r1, r1', r2, ?_⟩
  intro b hb
  simp only [List.cons_append, List.nil_append, List.append_nil, List.mem_cons, List.not_mem_nil, or_false] at hb
  rcases hb with rfl | rfl
  · exact zeroize_clean t2
  · exact zeroize_clean t1

end Residue
end Abe
