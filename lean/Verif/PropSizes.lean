import Verif.PropLookup
import Verif.PropSetExact
import Verif.PropContains
/-
  Property C86: how many prefixes the sets have that the operations return.
-/
set_option linter.unusedSectionVars false
namespace Addrs
open GoWord LawfulGoWord

section
variable {α : Type} [LawfulGoWord α]

theorem ContainsP.sub {p q : Prefix α} (hp : p.WF) (hq : q.WF) (h : ContainsP p q) {a : α} (ha : InPrefix q a) : InPrefix p a := by
  have h1 := (containsP_iff hp).mp h
  exact (inPrefix_iff hp).mpr (h1.2.trans (((inPrefix_iff hq).mp ha).mono h1.1))

/-- two prefixes with a common address are nested -/
theorem nested_of_common {p q : Prefix α} (hp : p.WF) (hq : q.WF) {a : α} (h1 : InPrefix p a) (h2 : InPrefix q a) :
    ContainsP p q ∨ ContainsP q p := by
  have k1 := (inPrefix_iff hp).mp h1
  have k2 := (inPrefix_iff hq).mp h2
  rcases Nat.le_total p.len q.len with h | h
  · exact .inl ((containsP_iff hp).mpr ⟨h, k1.trans (k2.mono h).symm⟩)
  · exact .inr ((containsP_iff hq).mpr ⟨h, k2.trans (k1.mono h).symm⟩)

theorem exists_min_len (P : Prefix α → Prop) (L : List (Prefix α)) (h : ∃ p ∈ L, P p) :
    ∃ p ∈ L, P p ∧ ∀ p' ∈ L, P p' → p.len ≤ p'.len := by
  induction L with
  | nil => obtain ⟨p, h, _⟩ := h; cases h
  | cons x L ih =>
    by_cases hx : P x
    · by_cases hL : ∃ p ∈ L, P p
      · obtain ⟨p, h1, h2, h3⟩ := ih hL
        by_cases hl : x.len ≤ p.len
        · refine ⟨x, List.mem_cons_self, hx, fun p' hp' k => ?_⟩
          rcases List.mem_cons.mp hp' with rfl | hm
          · exact Nat.le_refl _
          · exact Nat.le_trans hl (h3 p' hm k)
        · refine ⟨p, List.mem_cons_of_mem _ h1, h2, fun p' hp' k => ?_⟩
          rcases List.mem_cons.mp hp' with rfl | hm
          · omega
          · exact h3 p' hm k
      · refine ⟨x, List.mem_cons_self, hx, fun p' hp' k => ?_⟩
        rcases List.mem_cons.mp hp' with rfl | hm
        · exact Nat.le_refl _
        · exact absurd ⟨p', hm, k⟩ hL
    · obtain ⟨p, h1, h2, h3⟩ := ih (by
        obtain ⟨p, h1, h2⟩ := h
        rcases List.mem_cons.mp h1 with rfl | hm
        · exact absurd h2 hx
        · exact ⟨p, hm, h2⟩)
      refine ⟨p, List.mem_cons_of_mem _ h1, h2, fun p' hp' k => ?_⟩
      rcases List.mem_cons.mp hp' with rfl | hm
      · exact absurd k hx
      · exact h3 p' hm k

/-- what the list of prefixes covers -/
def Cover (L : List (Prefix α)) (P : α → Prop) : Prop := (∀ p ∈ L, p.WF) ∧ ∀ a, P a ↔ ∃ p ∈ L, InPrefix p a

theorem Cover.cons {L : List (Prefix α)} {P Q : α → Prop} {p : Prefix α} (h : Cover L P) (hp : p.WF)
    (hQ : ∀ a, Q a ↔ InPrefix p a ∨ P a) : Cover (p :: L) Q := by
  refine ⟨fun q hq => ?_, fun a => ?_⟩
  · rcases List.mem_cons.mp hq with rfl | hm
    · exact hp
    · exact h.1 q hm
  · rw [hQ, h.2 a]
    simp

theorem Cover.append {L M : List (Prefix α)} {P Q R : α → Prop} (h : Cover L P) (k : Cover M Q)
    (hQ : ∀ a, R a ↔ P a ∨ Q a) : Cover (L ++ M) R := by
  refine ⟨fun q hq => (List.mem_append.mp hq).elim (h.1 q) (k.1 q), fun a => ?_⟩
  rw [hQ, h.2 a, k.2 a]
  constructor
  · rintro (⟨p, h1, h2⟩ | ⟨p, h1, h2⟩)
    · exact ⟨p, List.mem_append_left _ h1, h2⟩
    · exact ⟨p, List.mem_append_right _ h1, h2⟩
  · rintro ⟨p, h1, h2⟩
    exact (List.mem_append.mp h1).elim (fun h => .inl ⟨p, h, h2⟩) (fun h => .inr ⟨p, h, h2⟩)

theorem Cover.congr {L : List (Prefix α)} {P Q : α → Prop} (h : Cover L P) (hQ : ∀ a, Q a ↔ P a) : Cover L Q :=
  ⟨h.1, fun a => (hQ a).trans (h.2 a)⟩

theorem Cover.single {p : Prefix α} (hp : p.WF) : Cover [p] (InPrefix p) :=
  ⟨fun q hq => by rw [List.mem_singleton.mp hq]; exact hp, fun a => by simp⟩

theorem Cover.nil : Cover ([] : List (Prefix α)) (fun _ => False) := ⟨(fun _ h => by cases h), fun a => by simp⟩

/-- what is in a prefix and in none of its longer part -/
theorem complement_cover (n : Nat) : ∀ (p q : Prefix α), p.WF → q.WF → ContainsP p q → q.len = p.len + n →
    ∃ L, L.length ≤ n ∧ Cover L (fun a => InPrefix p a ∧ ¬ InPrefix q a) := by
  induction n with
  | zero =>
    intro p q hp hq hc hl
    refine ⟨[], Nat.le_refl _, Cover.nil.congr fun a => ⟨fun ⟨h1, h2⟩ => ?_, False.elim⟩⟩
    have : ContainsP q p := (nested_of_common hq hp (a := q.addr) rfl hc.2).elim id
      fun h => (containsP_iff hq).mpr ⟨by omega, by
        have := ((containsP_iff hp).mp h).2
        have e : q.len = p.len := by omega
        show Agree _ _ _
        rw [e]
        exact Agree.symm this⟩
    exact h2 (this.sub hq hp h1)
  | succ n ih =>
    intro p q hp hq hc hl
    have hw : p.len < width α := by have : q.len ≤ width α := hq; omega
    obtain ⟨e1, e2, m1, m2, _⟩ := C05_halves p hw
    have w1 : p.halves.1.WF := by show p.halves.1.len ≤ _; omega
    have w2 : p.halves.2.WF := by show p.halves.2.len ≤ _; omega
    have hqa := hc.2
    by_cases hm : toNat q.addr < toNat p.network.addr + blockSize α (p.len + 1)
    · have hc1 : ContainsP p.halves.1 q := ⟨by omega, (m1 _).mpr ⟨hqa, hm⟩⟩
      obtain ⟨L, h1, h2⟩ := ih p.halves.1 q w1 hq hc1 (by omega)
      refine ⟨p.halves.2 :: L, by simp only [List.length_cons]; omega, h2.cons w2 fun a => ?_⟩
      have hs : InPrefix q a → InPrefix p.halves.1 a := hc1.sub w1 hq
      rw [m1] at hs
      rw [m1, m2]
      constructor
      · rintro ⟨k1, k2⟩
        by_cases k : toNat a < toNat p.network.addr + blockSize α (p.len + 1)
        · exact .inr ⟨⟨k1, k⟩, k2⟩
        · exact .inl ⟨k1, by omega⟩
      · rintro (⟨k1, k2⟩ | ⟨⟨k1, k2⟩, k3⟩)
        · exact ⟨k1, fun h => by have := (hs h).2; omega⟩
        · exact ⟨k1, k3⟩
    · have hc1 : ContainsP p.halves.2 q := ⟨by omega, (m2 _).mpr ⟨hqa, by omega⟩⟩
      obtain ⟨L, h1, h2⟩ := ih p.halves.2 q w2 hq hc1 (by omega)
      refine ⟨p.halves.1 :: L, by simp only [List.length_cons]; omega, h2.cons w1 fun a => ?_⟩
      have hs : InPrefix q a → InPrefix p.halves.2 a := hc1.sub w2 hq
      rw [m2] at hs
      rw [m1, m2]
      constructor
      · rintro ⟨k1, k2⟩
        by_cases k : toNat a < toNat p.network.addr + blockSize α (p.len + 1)
        · exact .inl ⟨k1, k⟩
        · exact .inr ⟨⟨k1, by omega⟩, k2⟩
      · rintro (⟨k1, k2⟩ | ⟨⟨k1, k2⟩, k3⟩)
        · exact ⟨k1, fun h => by have := (hs h).2; omega⟩
        · exact ⟨k1, k3⟩

theorem Cover.filter {L : List (Prefix α)} {P : α → Prop} (h : Cover L P) (F : Prefix α → Prop) :
    ∃ L', L'.length ≤ L.length ∧ Cover L' (fun a => ∃ p ∈ L, F p ∧ InPrefix p a) := by
  classical
  refine ⟨L.filter fun p => decide (F p), List.length_filter_le _ _, fun p hp => h.1 p (List.mem_filter.mp hp).1, fun a => ?_⟩
  constructor
  · rintro ⟨p, h1, h2, h3⟩
    exact ⟨p, List.mem_filter.mpr ⟨h1, by simpa using h2⟩, h3⟩
  · rintro ⟨p, h1, h2⟩
    have := List.mem_filter.mp h1
    exact ⟨p, this.1, by simpa using this.2, h2⟩

/-- removing one prefix from a list of them -/
theorem Cover.remove {L : List (Prefix α)} {P : α → Prop} (h : Cover L P) {q : Prefix α} (hq : q.WF) :
    ∃ L', L'.length ≤ L.length + q.len ∧ Cover L' (fun a => P a ∧ ¬ InPrefix q a) := by
  obtain ⟨K, hlen, hf⟩ := h.filter (fun p => ¬ (ContainsP p q ∨ ContainsP q p))
  have hout : ∀ p ∈ L, ¬ (ContainsP p q ∨ ContainsP q p) → ∀ a, InPrefix p a → ¬ InPrefix q a := fun p hp hn a h1 h2 =>
    hn (nested_of_common (h.1 p hp) hq h1 h2)
  by_cases he : ∃ p ∈ L, ContainsP p q
  · obtain ⟨p, k1, k2, k3⟩ := exists_min_len (fun p => ContainsP p q) L he
    obtain ⟨M, l1, l2⟩ := complement_cover (q.len - p.len) p q (h.1 p k1) hq k2 (by have := k2.1; omega)
    refine ⟨_, ?_, hf.append l2 fun a => ?_⟩
    · rw [List.length_append]; omega
    · rw [h.2 a]
      constructor
      · rintro ⟨⟨x, x1, x2⟩, x3⟩
        by_cases hx : ContainsP x q ∨ ContainsP q x
        · rcases hx with hx | hx
          · have : ContainsP p x := k2.nest (h.1 p k1) (h.1 x x1) hx (k3 x x1 hx)
            exact .inr ⟨this.sub (h.1 p k1) (h.1 x x1) x2, x3⟩
          · exact absurd (hx.sub hq (h.1 x x1) x2) x3
        · exact .inl ⟨x, x1, hx, x2⟩
      · rintro (⟨x, x1, x2, x3⟩ | ⟨x1, x2⟩)
        · exact ⟨⟨x, x1, x3⟩, hout x x1 x2 a x3⟩
        · exact ⟨⟨p, k1, x1⟩, x2⟩
  · refine ⟨_, by omega, hf.congr fun a => ?_⟩
    rw [h.2 a]
    constructor
    · rintro ⟨⟨x, x1, x2⟩, x3⟩
      refine ⟨x, x1, fun hx => ?_, x2⟩
      rcases hx with hx | hx
      · exact he ⟨x, x1, hx⟩
      · exact x3 (hx.sub hq (h.1 x x1) x2)
    · rintro ⟨x, x1, x2, x3⟩
      exact ⟨⟨x, x1, x3⟩, hout x x1 x2 a x3⟩

theorem Cover.removeAll {L M : List (Prefix α)} {P Q : α → Prop} (h : Cover L P) (k : Cover M Q) :
    ∃ L', L'.length ≤ L.length + width α * M.length ∧ Cover L' (fun a => P a ∧ ¬ Q a) := by
  induction M generalizing Q with
  | nil => exact ⟨L, by simp, h.congr fun a => by rw [k.2 a]; simp⟩
  | cons q M ih =>
    obtain ⟨L', h1, h2⟩ := ih (Q := fun a => ∃ p ∈ M, InPrefix p a) ⟨fun p hp => k.1 p (List.mem_cons_of_mem _ hp), fun a => Iff.rfl⟩
    have hq : q.WF := k.1 q List.mem_cons_self
    obtain ⟨L'', k1, k2⟩ := h2.remove hq
    refine ⟨L'', ?_, k2.congr fun a => ?_⟩
    · have : q.len ≤ width α := hq
      rw [List.length_cons, Nat.mul_add]
      omega
    · rw [k.2 a]
      constructor
      · rintro ⟨x1, x2⟩
        exact ⟨⟨x1, fun ⟨p, y1, y2⟩ => x2 ⟨p, List.mem_cons_of_mem _ y1, y2⟩⟩, fun hx => x2 ⟨q, List.mem_cons_self, hx⟩⟩
      · rintro ⟨⟨x1, x2⟩, x3⟩
        refine ⟨x1, ?_⟩
        rintro ⟨p, y1, y2⟩
        rcases List.mem_cons.mp y1 with rfl | hm
        · exact x3 y2
        · exact x2 ⟨p, hm, y2⟩

theorem Cover.inter {L M : List (Prefix α)} {P Q : α → Prop} (h : Cover L P) (k : Cover M Q) :
    ∃ L', L'.length ≤ L.length + M.length ∧ Cover L' (fun a => P a ∧ Q a) := by
  obtain ⟨K, hlen, hf⟩ := h.filter (fun p => ∃ q ∈ M, ContainsP q p)
  obtain ⟨K', klen, kf⟩ := k.filter (fun q => ∃ p ∈ L, ContainsP p q)
  refine ⟨_, ?_, hf.append kf fun a => ?_⟩
  · rw [List.length_append]; omega
  · rw [h.2 a, k.2 a]
    constructor
    · rintro ⟨⟨p, p1, p2⟩, ⟨q, q1, q2⟩⟩
      rcases nested_of_common (h.1 p p1) (k.1 q q1) p2 q2 with hc | hc
      · exact .inr ⟨q, q1, ⟨p, p1, hc⟩, q2⟩
      · exact .inl ⟨p, p1, ⟨q, q1, hc⟩, p2⟩
    · rintro (⟨p, p1, ⟨q, q1, hc⟩, p2⟩ | ⟨q, q1, ⟨p, p1, hc⟩, q2⟩)
      · exact ⟨⟨p, p1, p2⟩, ⟨q, q1, hc.sub (k.1 q q1) (h.1 p p1) p2⟩⟩
      · exact ⟨⟨p, p1, hc.sub (h.1 p p1) (k.1 q q1) q2⟩, ⟨q, q1, q2⟩⟩

end

section
variable {α : Type} [LawfulIPFamily α]

/-- the prefixes of a set, as `WalkPrefixes` reports them -/
theorem IPSet.Reachable.cover {s : IPSet α} (hs : s.Reachable) :
    ∃ L, (s.walkPrefixes (fun _ n => (n + 1, true)) 0).1 = L.length ∧ Cover L s.has := by
  obtain ⟨L, h1, _, h3, h4⟩ := C16_walkPrefixes s hs
  refine ⟨L, ?_, fun p hp => (h4 p hp).1, h3⟩
  rw [h1, visit_true, foldl_count]
  simp

theorem IPSet.Reachable.le {s : IPSet α} (hs : s.Reachable) {L : List (Prefix α)} {P : α → Prop} (h : Cover L P)
    (hP : ∀ a, s.has a ↔ P a) : (s.walkPrefixes (fun _ n => (n + 1, true)) 0).1 ≤ L.length :=
  C17_minimal s hs L h.1 fun a => (hP a).trans (h.2 a)

/-- `Union` has at most as many prefixes as both sets together. -/
theorem C86_union (s : IPSet α) (i : SetI α) (hs : s.Reachable) (hi : i.Valid) :
    ((s.union i).walkPrefixes (fun _ n => (n + 1, true)) 0).1 ≤
      (s.walkPrefixes (fun _ n => (n + 1, true)) 0).1 + (i.toSet.walkPrefixes (fun _ n => (n + 1, true)) 0).1 := by
  obtain ⟨L, e1, h1⟩ := hs.cover
  obtain ⟨M, e2, h2⟩ := hi.reachable.cover
  rw [e1, e2, ← List.length_append]
  exact (IPSet.Reachable.union s i.toSet hs hi.reachable).le (h1.append h2 fun a => Iff.rfl) fun a => C09_union s i hs hi a

/-- So has `Intersection`. -/
theorem C86_intersection (s : IPSet α) (i : SetI α) (hs : s.Reachable) (hi : i.Valid) :
    ((s.intersection i).walkPrefixes (fun _ n => (n + 1, true)) 0).1 ≤
      (s.walkPrefixes (fun _ n => (n + 1, true)) 0).1 + (i.toSet.walkPrefixes (fun _ n => (n + 1, true)) 0).1 := by
  obtain ⟨L, e1, h1⟩ := hs.cover
  obtain ⟨M, e2, h2⟩ := hi.reachable.cover
  obtain ⟨N, e3, h3⟩ := h1.inter h2
  rw [e1, e2]
  exact Nat.le_trans ((IPSet.Reachable.intersection s i.toSet hs hi.reachable).le h3 fun a => C10_intersection s i hs hi a) e3

/-- `Difference` splits: at most as many more as there are bits in an address, for every prefix removed. -/
theorem C86_difference (s : IPSet α) (i : SetI α) (hs : s.Reachable) (hi : i.Valid) :
    ((s.difference i).walkPrefixes (fun _ n => (n + 1, true)) 0).1 ≤
      (s.walkPrefixes (fun _ n => (n + 1, true)) 0).1 + width α * (i.toSet.walkPrefixes (fun _ n => (n + 1, true)) 0).1 := by
  obtain ⟨L, e1, h1⟩ := hs.cover
  obtain ⟨M, e2, h2⟩ := hi.reachable.cover
  obtain ⟨N, e3, h3⟩ := h1.removeAll h2
  rw [e1, e2]
  exact Nat.le_trans ((IPSet.Reachable.difference s i.toSet hs hi.reachable).le h3 fun a => C11_difference s i hs hi a) e3

/-- the addresses of a prefix are an interval, by its first and its size -/
theorem inPrefix_bounds {p : Prefix α} (hp : p.WF) (a : α) :
    InPrefix p a ↔ toNat p.network.addr ≤ toNat a ∧ toNat a < toNat p.network.addr + blockSize α p.len := by
  rw [inPrefix_iff hp, covers_iff_range hp, (C04_broadcast p hp).1]
  have : 0 < blockSize α p.len := Nat.pow_pos (by omega)
  omega

theorem halves_network (p : Prefix α) (hp : p.len < width α) :
    toNat p.halves.1.network.addr = toNat p.network.addr ∧
    toNat p.halves.2.network.addr = toNat p.network.addr + blockSize α (p.len + 1) := by
  obtain ⟨e1, e2, m1, m2, hb⟩ := C05_halves p hp
  have w : p.WF := by show p.len ≤ _; omega
  have w1 : p.halves.1.WF := by show p.halves.1.len ≤ _; omega
  have w2 : p.halves.2.WF := by show p.halves.2.len ≤ _; omega
  have hpos : 0 < blockSize α (p.len + 1) := Nat.pow_pos (by omega)
  have b1 := (C04_broadcast p.halves.1 w1).1
  have b2 := (C04_broadcast p.halves.2 w2).1
  have k1 := (m1 _).mp ((inPrefix_bounds w1 p.halves.1.network.addr).mpr (by rw [e1]; omega))
  have k2 := (m2 _).mp ((inPrefix_bounds w2 p.halves.2.network.addr).mpr (by rw [e2]; omega))
  have l1 := (m1 _).mp ((inPrefix_bounds w1 p.halves.1.broadcast.addr).mpr (by rw [e1] at *; omega))
  have l2 := (m2 _).mp ((inPrefix_bounds w2 p.halves.2.broadcast.addr).mpr (by rw [e2] at *; omega))
  rw [inPrefix_bounds w] at k1 k2 l1 l2
  rw [e1] at b1
  rw [e2] at b2
  omega

/-- the upper part of a prefix -/
theorem up_cover (n : Nat) : ∀ (p : Prefix α) (x : Nat), p.WF → width α = p.len + n →
    ∃ L, L.length ≤ max 1 n ∧ (x ≠ toNat p.network.addr + 1 → L.length ≤ max 1 (n - 1)) ∧ Cover L (fun a => InPrefix p a ∧ x ≤ toNat a) := by
  induction n with
  | zero =>
    intro p x hp hn
    by_cases hx : x ≤ toNat p.network.addr
    · exact ⟨[p], by simp, fun _ => by simp only [List.length_singleton]; omega, (Cover.single hp).congr fun a => by rw [inPrefix_bounds hp]; omega⟩
    · refine ⟨[], by simp, fun _ => by simp, Cover.nil.congr fun a => ?_⟩
      have : blockSize α p.len = 1 := by rw [blockSize, hn]; simp
      rw [inPrefix_bounds hp, this, iff_false]; omega
  | succ n ih =>
    intro p x hp hn
    by_cases hx : x ≤ toNat p.network.addr
    · exact ⟨[p], by simp only [List.length_singleton]; omega, fun _ => by simp only [List.length_singleton]; omega, (Cover.single hp).congr fun a => by rw [inPrefix_bounds hp]; omega⟩
    have hw : p.len < width α := by omega
    obtain ⟨e1, e2, m1, m2, hb⟩ := C05_halves p hw
    have w1 : p.halves.1.WF := by show p.halves.1.len ≤ _; omega
    have w2 : p.halves.2.WF := by show p.halves.2.len ≤ _; omega
    by_cases hm : x < toNat p.network.addr + blockSize α (p.len + 1)
    · obtain ⟨L, h1, h3, h2⟩ := ih p.halves.1 x w1 (by omega)
      have hn0 : n ≠ 0 := by
        rintro rfl
        have : blockSize α (p.len + 1) = 1 := by rw [blockSize, hn]; simp
        omega
      have hn1 : x ≠ toNat p.network.addr + 1 → n ≠ 1 := by
        rintro h rfl
        have : blockSize α (p.len + 1) = 2 := by
          rw [blockSize, hn, show p.len + (1 + 1) - (p.len + 1) = 1 by omega]
        omega
      refine ⟨p.halves.2 :: L, by simp only [List.length_cons]; omega, fun hx => by simp only [List.length_cons]; have := h3 (by rw [(halves_network p hw).1]; omega); have := hn1 hx; omega, h2.cons w2 fun a => ?_⟩
      rw [m1, m2]
      constructor
      · rintro ⟨k1, k2⟩
        by_cases k : toNat a < toNat p.network.addr + blockSize α (p.len + 1)
        · exact .inr ⟨⟨k1, k⟩, k2⟩
        · exact .inl ⟨k1, by omega⟩
      · rintro (⟨k1, k2⟩ | ⟨⟨k1, k2⟩, k3⟩)
        · exact ⟨k1, by omega⟩
        · exact ⟨k1, k3⟩
    · obtain ⟨L, h1, h3, h2⟩ := ih p.halves.2 x w2 (by omega)
      refine ⟨L, by omega, fun hx => by omega, h2.congr fun a => ?_⟩
      rw [m2]
      constructor
      · rintro ⟨k1, k2⟩; exact ⟨⟨k1, by omega⟩, k2⟩
      · rintro ⟨⟨k1, _⟩, k2⟩; exact ⟨k1, k2⟩

/-- the lower part of a prefix -/
theorem down_cover (n : Nat) : ∀ (p : Prefix α) (y : Nat), p.WF → width α = p.len + n →
    ∃ L, L.length ≤ max 1 n ∧ (y + 2 ≠ toNat p.network.addr + blockSize α p.len → L.length ≤ max 1 (n - 1)) ∧ Cover L (fun a => InPrefix p a ∧ toNat a ≤ y) := by
  induction n with
  | zero =>
    intro p y hp hn
    have hb : blockSize α p.len = 1 := by rw [blockSize, hn]; simp
    by_cases hx : toNat p.network.addr ≤ y
    · exact ⟨[p], by simp, fun _ => by simp only [List.length_singleton]; omega, (Cover.single hp).congr fun a => by rw [inPrefix_bounds hp]; omega⟩
    · refine ⟨[], by simp, fun _ => by simp, Cover.nil.congr fun a => ?_⟩
      rw [inPrefix_bounds hp, iff_false]; omega
  | succ n ih =>
    intro p y hp hn
    by_cases hx : toNat p.network.addr + blockSize α p.len ≤ y + 1
    · exact ⟨[p], by simp only [List.length_singleton]; omega, fun _ => by simp only [List.length_singleton]; omega, (Cover.single hp).congr fun a => by rw [inPrefix_bounds hp]; omega⟩
    have hw : p.len < width α := by omega
    obtain ⟨e1, e2, m1, m2, hb⟩ := C05_halves p hw
    have w1 : p.halves.1.WF := by show p.halves.1.len ≤ _; omega
    have w2 : p.halves.2.WF := by show p.halves.2.len ≤ _; omega
    by_cases hm : y < toNat p.network.addr + blockSize α (p.len + 1)
    · obtain ⟨L, h1, h3, h2⟩ := ih p.halves.1 y w1 (by omega)
      refine ⟨L, by omega, fun hx => by omega, h2.congr fun a => ?_⟩
      rw [m1]
      constructor
      · rintro ⟨k1, k2⟩; exact ⟨⟨k1, by omega⟩, k2⟩
      · rintro ⟨⟨k1, _⟩, k2⟩; exact ⟨k1, k2⟩
    · obtain ⟨L, h1, h3, h2⟩ := ih p.halves.2 y w2 (by omega)
      have hn0 : n ≠ 0 := by
        rintro rfl
        have : blockSize α (p.len + 1) = 1 := by rw [blockSize, hn]; simp
        omega
      have hn1 : y + 2 ≠ toNat p.network.addr + blockSize α p.len → n ≠ 1 := by
        rintro h rfl
        have : blockSize α (p.len + 1) = 2 := by
          rw [blockSize, hn, show p.len + (1 + 1) - (p.len + 1) = 1 by omega]
        omega
      refine ⟨p.halves.1 :: L, by simp only [List.length_cons]; omega, fun hx => by simp only [List.length_cons]; have := h3 (by rw [(halves_network p hw).2, e2]; omega); have := hn1 hx; omega, h2.cons w1 fun a => ?_⟩
      rw [m1, m2]
      constructor
      · rintro ⟨k1, k2⟩
        by_cases k : toNat a < toNat p.network.addr + blockSize α (p.len + 1)
        · exact .inl ⟨k1, k⟩
        · exact .inr ⟨⟨k1, by omega⟩, k2⟩
      · rintro (⟨k1, k2⟩ | ⟨⟨k1, k2⟩, k3⟩)
        · exact ⟨k1, by omega⟩
        · exact ⟨k1, k3⟩

/-- an interval inside a prefix -/
theorem interval_cover (n : Nat) : ∀ (p : Prefix α) (x y : Nat), p.WF → width α = p.len + n →
    ∃ L, L.length ≤ max 1 (2 * n - 2) ∧
      (¬ (x = toNat p.network.addr + 1 ∧ y + 2 = toNat p.network.addr + blockSize α p.len) → L.length ≤ max 2 (2 * n - 3)) ∧ Cover L (fun a => InPrefix p a ∧ x ≤ toNat a ∧ toNat a ≤ y) := by
  induction n with
  | zero =>
    intro p x y hp hn
    have hb : blockSize α p.len = 1 := by rw [blockSize, hn]; simp
    by_cases hx : x ≤ toNat p.network.addr ∧ toNat p.network.addr ≤ y
    · exact ⟨[p], by simp only [List.length_singleton]; omega, fun _ => by simp only [List.length_singleton]; omega, (Cover.single hp).congr fun a => by rw [inPrefix_bounds hp]; omega⟩
    · refine ⟨[], by simp, fun _ => by simp, Cover.nil.congr fun a => ?_⟩
      rw [inPrefix_bounds hp, iff_false]; omega
  | succ n ih =>
    intro p x y hp hn
    have hw : p.len < width α := by omega
    obtain ⟨e1, e2, m1, m2, hb⟩ := C05_halves p hw
    have w1 : p.halves.1.WF := by show p.halves.1.len ≤ _; omega
    have w2 : p.halves.2.WF := by show p.halves.2.len ≤ _; omega
    by_cases h1 : y < toNat p.network.addr + blockSize α (p.len + 1)
    · obtain ⟨L, l1, l3, l2⟩ := ih p.halves.1 x y w1 (by omega)
      refine ⟨L, by omega, fun hx => by omega, l2.congr fun a => ?_⟩
      rw [m1]
      constructor
      · rintro ⟨k1, k2⟩; exact ⟨⟨k1, by omega⟩, k2⟩
      · rintro ⟨⟨k1, _⟩, k2⟩; exact ⟨k1, k2⟩
    by_cases h2 : toNat p.network.addr + blockSize α (p.len + 1) ≤ x
    · obtain ⟨L, l1, l3, l2⟩ := ih p.halves.2 x y w2 (by omega)
      refine ⟨L, by omega, fun hx => by omega, l2.congr fun a => ?_⟩
      rw [m2]
      constructor
      · rintro ⟨k1, k2⟩; exact ⟨⟨k1, by omega⟩, k2⟩
      · rintro ⟨⟨k1, _⟩, k2⟩; exact ⟨k1, k2⟩
    by_cases hn0 : n = 0
    · subst hn0
      have : blockSize α (p.len + 1) = 1 := by rw [blockSize, hn]; simp
      exact ⟨[p], by simp only [List.length_singleton]; omega, fun _ => by simp only [List.length_singleton]; omega, (Cover.single hp).congr fun a => by rw [inPrefix_bounds hp]; omega⟩
    obtain ⟨L, l1, l3, l2⟩ := up_cover n p.halves.1 x w1 (by omega)
    obtain ⟨M, k1, k3, k2⟩ := down_cover n p.halves.2 y w2 (by omega)
    rw [(halves_network p hw).1] at l3
    rw [(halves_network p hw).2, e2] at k3
    refine ⟨L ++ M, by rw [List.length_append]; omega, fun hx => ?_, l2.append k2 fun a => ?_⟩
    · rw [List.length_append]
      by_cases hx1 : x = toNat p.network.addr + 1
      · have := k3 (by omega)
        omega
      · have := l3 hx1
        omega
    rw [m1, m2]
    constructor
    · rintro ⟨j1, j2, j3⟩
      by_cases k : toNat a < toNat p.network.addr + blockSize α (p.len + 1)
      · exact .inl ⟨⟨j1, k⟩, j2⟩
      · exact .inr ⟨⟨j1, by omega⟩, j3⟩
    · rintro (⟨⟨j1, j2⟩, j3⟩ | ⟨⟨j1, j2⟩, j3⟩)
      · exact ⟨j1, j3, by omega⟩
      · exact ⟨j1, by omega, j3⟩

/-- The set of a range has at most `2 * width - 3` prefixes: 61 and 253. -/
theorem C86_range (r : Range α) (hr : r.Valid) :
    ((SetI.range r).toSet.walkPrefixes (fun _ n => (n + 1, true)) 0).1 ≤ max 2 (2 * width α - 3) := by
  obtain ⟨r', ht, _, _, _, h⟩ := C08_range_exact r hr
  have hp : (⟨r'.first, 0⟩ : Prefix α).WF := Nat.zero_le _
  obtain ⟨L, _, h1, h2⟩ := interval_cover (width α) ⟨r'.first, 0⟩ (toNat r'.first) (toNat r'.last) hp (by simp)
  refine Nat.le_trans ((IPSet.Reachable.range r hr).le (h2.congr (Q := InRange r') fun a => ?_) h) (h1 ?_)
  · have : InPrefix (⟨r'.first, 0⟩ : Prefix α) a := (inPrefix_iff hp).mpr fun i hi => absurd hi (Nat.not_lt_zero i)
    simp only [this, true_and, InRange]
  · rintro ⟨e1, e2⟩
    have hf : toNat r'.first < 2 ^ width α := toNat_lt _
    have hl : toNat r'.last < 2 ^ width α := toNat_lt _
    have hn : toNat (Prefix.network (⟨r'.first, 0⟩ : Prefix α)).addr = 0 := by
      rw [(C04_network _ hp).1]
      simp only [blockSize, Nat.sub_zero]
      rw [Nat.div_eq_of_lt hf, Nat.zero_mul]
    rw [hn] at e1 e2
    simp only [blockSize, Nat.sub_zero] at e2
    refine ht.good ⟨width α, Nat.le_refl _, ?_, ?_, ?_⟩
    · rw [Nat.div_eq_of_lt hf, Nat.div_eq_of_lt hl]
    · rw [Nat.mod_eq_of_lt hf, Nat.mod_eq_of_lt hl]; omega
    · rw [Nat.mod_eq_of_lt hf]; omega

theorem C86_range4 (r : Range (BitVec 32)) (hr : r.Valid) :
    ((SetI.range r).toSet.walkPrefixes (fun _ n => (n + 1, true)) 0).1 ≤ 61 := C86_range r hr

theorem C86_range6 (r : Range U128) (hr : r.Valid) :
    ((SetI.range r).toSet.walkPrefixes (fun _ n => (n + 1, true)) 0).1 ≤ 253 := C86_range r hr

/-- and of an address and of a prefix it has one -/
theorem C86_prefix (p : Prefix α) (hp : p.WF) :
    ((SetI.prefix p).toSet.walkPrefixes (fun _ n => (n + 1, true)) 0).1 = 1 := by
  have hs : (SetI.prefix p).toSet.Reachable := .prefix p hp
  have h := hs.le (Cover.single hp) fun a => C08_prefix p hp a
  obtain ⟨L, h1, h2⟩ := hs.cover
  rw [h1] at h ⊢
  cases L with
  | nil => exact absurd ((h2.2 p.addr).mp ((C08_prefix p hp _).mpr rfl)) (by simp)
  | cons x L => simp only [List.length_cons, List.length_nil] at h ⊢; omega

theorem C86_address (a : α) : ((SetI.address a).toSet.walkPrefixes (fun _ n => (n + 1, true)) 0).1 = 1 := by
  have hs : (SetI.address a).toSet.Reachable := .address a
  have hw : (⟨a, width α⟩ : Prefix α).WF := Nat.le_refl _
  have hb : ∀ b, (SetI.address a).toSet.has b ↔ InPrefix (⟨a, width α⟩ : Prefix α) b := fun b => by
    rw [C08_address, inPrefix_iff hw]
    exact ⟨fun h => h ▸ Agree.refl _ _, fun h => Agree.eq h (Nat.le_refl _)⟩
  have h := hs.le (Cover.single hw) hb
  obtain ⟨L, h1, h2⟩ := hs.cover
  rw [h1] at h ⊢
  cases L with
  | nil => exact absurd ((h2.2 a).mp ((hb a).mpr rfl)) (by simp)
  | cons x L => simp only [List.length_cons, List.length_nil] at h ⊢; omega

/-- A set that is built from addresses and prefixes has at most as many prefixes as were added to it. -/
theorem C86_built (L : List (SetI α)) (hL : ∀ i ∈ L, (∃ a, i = .address a) ∨ ∃ p : Prefix α, p.WF ∧ i = .prefix p) (s : IPSet α)
    (hs : s.Reachable) :
    ((L.foldl (fun s i => s.union i) s).walkPrefixes (fun _ n => (n + 1, true)) 0).1 ≤
      (s.walkPrefixes (fun _ n => (n + 1, true)) 0).1 + L.length := by
  induction L generalizing s with
  | nil => exact Nat.le_refl _
  | cons i L ih =>
    have hi : i.Valid ∧ (i.toSet.walkPrefixes (fun _ n => (n + 1, true)) 0).1 = 1 := by
      rcases hL i List.mem_cons_self with ⟨a, rfl⟩ | ⟨p, hp, rfl⟩
      · exact ⟨trivial, C86_address a⟩
      · exact ⟨hp, C86_prefix p hp⟩
    have h1 := C86_union s i hs hi.1
    have h2 := ih (fun j hj => hL j (List.mem_cons_of_mem _ hj)) (s.union i) (.union s i.toSet hs hi.1.reachable)
    rw [hi.2] at h1
    rw [List.foldl_cons, List.length_cons]
    omega

open Sample in
/-- the hypotheses are met, and the bounds are reached or close: one address taken out of everything leaves 32 prefixes; a range that
    misses the first address and the last two has 61; the union of two neighbours has one -/
example :
    (((SetI.prefix (⟨0#32, 0⟩ : Prefix (BitVec 32))).toSet.difference (.address 5#32)).walkPrefixes
      (fun _ n => (n + 1, true)) 0).1 = 32 ∧
    ((SetI.range (⟨1#32, 0xfffffffd#32⟩ : Range (BitVec 32))).toSet.walkPrefixes (fun _ n => (n + 1, true)) 0).1 = 61 ∧
    (((SetI.address 4#32).toSet.union (.address 5#32)).walkPrefixes (fun _ n => (n + 1, true)) 0).1 = 1 := by
  decide +kernel

example : ((SetI.range (⟨⟨0, 1⟩, ⟨0xffffffffffffffff, 0xfffffffffffffffd⟩⟩ : Range U128)).toSet.walkPrefixes
    (fun _ n => (n + 1, true)) 0).1 = 253 := by
  decide +kernel

/-! ### prefixes and ranges -/

theorem pigeon {β γ : Type} (R : β → γ → Prop) (L : List β) : ∀ (P : List γ), (∀ b ∈ L, ∃ c ∈ P, R b c) →
    (L.Pairwise fun b b' => ∀ c ∈ P, ¬ (R b c ∧ R b' c)) → L.length ≤ P.length := by
  induction L with
  | nil => intro P _ _; exact Nat.zero_le _
  | cons b L ih =>
    intro P h1 h2
    obtain ⟨c, hc, hr⟩ := h1 b List.mem_cons_self
    obtain ⟨A, B, rfl⟩ := List.append_of_mem hc
    have h3 := List.pairwise_cons.mp h2
    have hsub : ∀ d, d ∈ A ++ B → d ∈ A ++ c :: B := fun d hd => by
      rcases List.mem_append.mp hd with h | h
      · exact List.mem_append_left _ h
      · exact List.mem_append_right _ (List.mem_cons_of_mem _ h)
    have := ih (A ++ B) (fun b' hb' => by
      obtain ⟨d, hd, hr'⟩ := h1 b' (List.mem_cons_of_mem _ hb')
      refine ⟨d, ?_, hr'⟩
      rcases List.mem_append.mp hd with h | h
      · exact List.mem_append_left _ h
      · rcases List.mem_cons.mp h with rfl | h
        · exact absurd ⟨hr, hr'⟩ (h3.1 b' hb' d hd)
        · exact List.mem_append_right _ h) (h3.2.imp fun h d hd => h d (hsub d hd))
    simp only [List.length_cons, List.length_append] at this ⊢
    omega

theorem apart_of_pairwise {L : List (Range α)} (h : L.Pairwise fun r r' => toNat r.last + 1 < toNat r'.first) {r r' : Range α}
    (hr : r ∈ L) (hr' : r' ∈ L) : r = r' ∨ toNat r.last + 1 < toNat r'.first ∨ toNat r'.last + 1 < toNat r.first := by
  induction L with
  | nil => cases hr
  | cons x L ih =>
    have h3 := List.pairwise_cons.mp h
    rcases List.mem_cons.mp hr with rfl | k <;> rcases List.mem_cons.mp hr' with rfl | k'
    · exact .inl rfl
    · exact .inr (.inl (h3.1 _ k'))
    · exact .inr (.inr (h3.1 _ k))
    · exact ih h3.2 k k'

theorem ranges_cover (L : List (Range α)) : ∃ M : List (Prefix α), M.length ≤ max 1 (2 * width α - 2) * L.length ∧
    Cover M (fun a => ∃ r ∈ L, InRange r a) := by
  induction L with
  | nil => exact ⟨[], by simp, Cover.nil.congr fun a => by simp⟩
  | cons r L ih =>
    obtain ⟨M, h1, h2⟩ := ih
    have hp : (⟨r.first, 0⟩ : Prefix α).WF := Nat.zero_le _
    obtain ⟨N, k1, _, k2⟩ := interval_cover (width α) ⟨r.first, 0⟩ (toNat r.first) (toNat r.last) hp (by simp)
    refine ⟨N ++ M, ?_, k2.append h2 fun a => ?_⟩
    · rw [List.length_append, List.length_cons, Nat.mul_add]; omega
    · have : InPrefix (⟨r.first, 0⟩ : Prefix α) a := (inPrefix_iff hp).mpr fun i hi => absurd hi (Nat.not_lt_zero i)
      simp [this, InRange]

/-- `WalkRanges` reports at most as many ranges as `WalkPrefixes` prefixes, and `WalkPrefixes` at most `2 * width - 2`
    prefixes for each range. -/
theorem C86_ranges (s : IPSet α) (hs : s.Reachable) :
    (s.walkRanges (fun _ n => (n + 1, true)) 0).1 ≤ (s.walkPrefixes (fun _ n => (n + 1, true)) 0).1 ∧
    (s.walkPrefixes (fun _ n => (n + 1, true)) 0).1 ≤
      max 1 (2 * width α - 2) * (s.walkRanges (fun _ n => (n + 1, true)) 0).1 := by
  obtain ⟨L, h1, h2, h3, h4⟩ := C18_walkRanges s hs
  have e : (s.walkRanges (fun _ n => (n + 1, true)) 0).1 = L.length := by
    rw [h1, visit_true, foldl_count]; simp
  obtain ⟨P, k1, k2⟩ := hs.cover
  rw [e]
  constructor
  · rw [k1]
    refine pigeon (fun r p => InPrefix p r.first) L P (fun r hr => ?_) (h3.imp_of_mem fun {r r'} hr hr' hlt p hp hc => ?_)
    · exact (k2.2 _).mp ((h4 _).mpr ⟨r, hr, Nat.le_refl _, h2 r hr⟩)
    · have hw := k2.1 p hp
      have hv : toNat r.first ≤ toNat r.last := h2 r hr
      have hb : toNat (ofNat α (toNat r.last + 1)) = toNat r.last + 1 :=
        toNat_ofNat (by have := toNat_lt r'.first; omega)
      obtain ⟨c1, c2⟩ := hc
      rw [inPrefix_bounds hw] at c1 c2
      have hin : InPrefix p (ofNat α (toNat r.last + 1)) := (inPrefix_bounds hw _).mpr (by omega)
      obtain ⟨x, x1, x2, x3⟩ := (h4 _).mp ((k2.2 _).mpr ⟨p, hp, hin⟩)
      rw [hb] at x2 x3
      rcases apart_of_pairwise h3 hr x1 with rfl | h | h
      · omega
      · omega
      · have : toNat x.first ≤ toNat x.last := h2 x x1
        omega
  · obtain ⟨M, m1, m2⟩ := ranges_cover L
    exact Nat.le_trans (hs.le m2 h4) m1

open Sample in
/-- both bounds are reached: everything but the first and the last address is one range, and 62 prefixes -/
example :
    let s := ((SetI.prefix (⟨0#32, 0⟩ : Prefix (BitVec 32))).toSet.difference (.address 0#32)).difference (.address 0xffffffff#32)
    (s.walkRanges (fun _ n => (n + 1, true)) 0).1 = 1 ∧ (s.walkPrefixes (fun _ n => (n + 1, true)) 0).1 = 62 ∧
    ((SetI.address 5#32).toSet.walkRanges (fun _ n => (n + 1, true)) 0).1 = 1 := by
  decide +kernel

end
end Addrs
