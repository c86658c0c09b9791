import Verif.PropText
import Verif.PropSets
/-
  C47: `Set.String`, and the texts of ranges and masks: what they are and that they determine the value.
-/
set_option linter.unusedSectionVars false
namespace Addrs
open GoWord LawfulGoWord Fmt

/-! ### the code -/

/-- ipv4/set.go:220-236, ipv6/set.go:211-226 `Set.String`; `str` is `Prefix.String`.  The state of the callback
    is the text built so far and the variable `comma`. -/
def IPSet.stringWith {α : Type} [LawfulGoWord α] (str : Prefix α → Str) (s : IPSet α) : Str :=
  let step (p : Prefix α) (x : Str × Bool) : (Str × Bool) × Bool :=
    ((if x.2 then (x.1 ++ [',', ' '] ++ str p, true) else (x.1 ++ str p, true)), true)
  (s.walkPrefixes step (['['], false)).1.1 ++ [']']

/-- ipv4/set.go:220-235 `Set.String` -/
def V4.setString (s : IPSet (BitVec 32)) : Str := s.stringWith V4.prefixString
/-- ipv6/set.go:211-226 `Set.String` -/
def V6.setString (s : IPSet U128) : Str := s.stringWith V6.prefixString

/-! ### the specification -/

/-- texts separated by a comma and a space -/
def commaSep : List Str → Str
  | [] => []
  | [x] => x
  | x :: y :: xs => x ++ [',', ' '] ++ commaSep (y :: xs)

/-! ### proofs -/

theorem foldl_comma {β : Type} (str : β → Str) (L : List β) (a : Str) :
    (L.foldl (fun (s : Str × Bool) p => if s.2 then (s.1 ++ [',', ' '] ++ str p, true) else (s.1 ++ str p, true))
      (a, true)).1 = a ++ (L.map fun p => [',', ' '] ++ str p).flatten := by
  induction L generalizing a with
  | nil => simp
  | cons x L ih =>
    rw [List.foldl_cons, if_pos rfl, ih]
    simp

theorem commaSep_cons (x : Str) (xs : List Str) : commaSep (x :: xs) = x ++ (xs.map fun y => [',', ' '] ++ y).flatten := by
  induction xs generalizing x with
  | nil => simp [commaSep]
  | cons y ys ih => rw [commaSep, ih]; simp

theorem IPSet.stringWith_eq {α : Type} [LawfulGoWord α] (str : Prefix α → Str) (s : IPSet α) :
    s.stringWith str = ['['] ++ commaSep (s.trie.prefixes.map str) ++ [']'] := by
  unfold IPSet.stringWith
  simp only []
  rw [IPSet.walkPrefixes_eq, visit_true (fun (p : Prefix α) (x : Str × Bool) =>
    (if x.2 then (x.1 ++ [',', ' '] ++ str p, true) else (x.1 ++ str p, true)))]
  show (s.trie.prefixes.foldl (fun (s : Str × Bool) p => if s.2 then (s.1 ++ [',', ' '] ++ str p, true) else
    (s.1 ++ str p, true)) (['['], false)).1 ++ _ = _
  cases s.trie.prefixes with
  | nil => rfl
  | cons x L =>
    rw [List.foldl_cons, if_neg (by simp), foldl_comma, List.map_cons, commaSep_cons]
    simp [List.map_map, Function.comp_def]

/-- a text without commas ends at the first comma -/
theorem comma_split {x y r s : Str} (hx : ',' ∉ x) (hy : ',' ∉ y)
    (hr : r = [] ∨ r.head? = some ',') (hs : s = [] ∨ s.head? = some ',') (h : x ++ r = y ++ s) : x = y ∧ r = s := by
  induction x generalizing y with
  | nil =>
    cases y with
    | nil => exact ⟨rfl, h⟩
    | cons c y =>
      rcases hr with rfl | hr
      · simp at h
      · exfalso
        rw [List.nil_append] at h
        rw [h, List.cons_append, List.head?_cons] at hr
        exact hy (Option.some.inj hr ▸ List.mem_cons_self)
  | cons c x ih =>
    cases y with
    | nil =>
      rcases hs with rfl | hs
      · simp at h
      · exfalso
        rw [List.nil_append] at h
        rw [← h, List.cons_append, List.head?_cons] at hs
        exact hx (Option.some.inj hs ▸ List.mem_cons_self)
    | cons d y =>
      rw [List.cons_append, List.cons_append] at h
      obtain ⟨rfl, h2⟩ := List.cons.inj h
      have := ih (fun hc => hx (List.mem_cons_of_mem _ hc)) (fun hc => hy (List.mem_cons_of_mem _ hc)) h2
      exact ⟨by rw [this.1], this.2⟩

theorem flat_head (xs : List Str) : (xs.map fun y : Str => [',', ' '] ++ y).flatten = [] ∨
    (xs.map fun y : Str => [',', ' '] ++ y).flatten.head? = some ',' := by
  cases xs with
  | nil => exact .inl rfl
  | cons x xs => exact .inr rfl

theorem flat_inj {xs ys : List Str} (hx : ∀ x ∈ xs, ',' ∉ x) (hy : ∀ x ∈ ys, ',' ∉ x)
    (h : (xs.map fun y : Str => [',', ' '] ++ y).flatten = (ys.map fun y : Str => [',', ' '] ++ y).flatten) : xs = ys := by
  induction xs generalizing ys with
  | nil => cases ys with
    | nil => rfl
    | cons y ys => simp at h
  | cons x xs ih => cases ys with
    | nil => simp at h
    | cons y ys =>
      simp only [List.map_cons, List.flatten_cons, List.append_assoc] at h
      have h := List.append_cancel_left h
      obtain ⟨rfl, h2⟩ := comma_split (hx x List.mem_cons_self) (hy y List.mem_cons_self) (flat_head _) (flat_head _) h
      rw [ih (fun a ha => hx a (List.mem_cons_of_mem _ ha)) (fun a ha => hy a (List.mem_cons_of_mem _ ha)) h2]

/-- a list of non-empty texts without commas is determined by the text with commas between them -/
theorem commaSep_inj {xs ys : List Str} (hx : ∀ x ∈ xs, ',' ∉ x ∧ x ≠ []) (hy : ∀ x ∈ ys, ',' ∉ x ∧ x ≠ [])
    (h : commaSep xs = commaSep ys) : xs = ys := by
  cases xs with
  | nil => cases ys with
    | nil => rfl
    | cons y ys =>
      rw [commaSep_cons] at h
      have : y = [] := by
        have := (List.append_eq_nil_iff.1 h.symm).1
        exact this
      exact absurd this (hy y List.mem_cons_self).2
  | cons x xs => cases ys with
    | nil =>
      rw [commaSep_cons] at h
      exact absurd (List.append_eq_nil_iff.1 h).1 (hx x List.mem_cons_self).2
    | cons y ys =>
      rw [commaSep_cons, commaSep_cons] at h
      obtain ⟨rfl, h2⟩ := comma_split (hx x List.mem_cons_self).1 (hy y List.mem_cons_self).1 (flat_head _) (flat_head _) h
      rw [flat_inj (fun a ha => (hx a (List.mem_cons_of_mem _ ha)).1) (fun a ha => (hy a (List.mem_cons_of_mem _ ha)).1) h2]

theorem digit_ne_comma {d : Nat} (h : d < 16) : digit d ≠ ',' ∧ digit d ≠ ']' := by
  have : ∀ d, d < 16 → digit d ≠ ',' ∧ digit d ≠ ']' := by decide
  exact this d h

theorem dec_no_comma (n : Nat) : ',' ∉ dec n ∧ ']' ∉ dec n := by
  constructor <;>
  · intro h
    obtain ⟨d, hd, e⟩ := Net.mem_dec _ h
    have := digit_ne_comma (d := d) (by omega)
    first
      | exact this.1 e.symm
      | exact this.2 e.symm

theorem V4.addressString_no_comma (a : BitVec 32) : ',' ∉ V4.addressString a ∧ ']' ∉ V4.addressString a := by
  rw [V4.addressString_quad]
  constructor <;>
  · intro h
    simp only [Net.quad, List.mem_append, List.mem_singleton] at h
    rcases h with (((((h | h) | h) | h) | h) | h) | h <;>
      first
        | exact (dec_no_comma _).1 h
        | exact (dec_no_comma _).2 h
        | exact absurd h (by decide)

theorem V6.addressString_no_comma (a : U128) : ',' ∉ V6.addressString a ∧ ']' ∉ V6.addressString a := by
  by_cases h : Mapped a
  · rw [V6.addressString_mapped h]; exact V4.addressString_no_comma _
  · rw [V6.addressString_plain h]
    constructor <;>
    · intro hc
      rcases Net.mem_print _ _ hc with e | ⟨d, hd, e⟩
      · exact absurd e (by decide)
      · first
          | exact (digit_ne_comma hd).1 e.symm
          | exact (digit_ne_comma hd).2 e.symm

theorem prefix_no_comma {a : Str} {n : Nat} (h : ',' ∉ a) : ',' ∉ a ++ ['/'] ++ dec n ∧ a ++ ['/'] ++ dec n ≠ [] := by
  refine ⟨fun hc => ?_, by simp⟩
  rcases List.mem_append.1 hc with hc | hc
  · rcases List.mem_append.1 hc with hc | hc
    · exact h hc
    · exact absurd (List.mem_singleton.1 hc) (by decide)
  · exact (dec_no_comma n).1 hc

theorem dec_inj {m n : Nat} (hm : m ≤ 128) (hn : n ≤ 128) (h : dec m = dec n) : m = n := by
  have key : ∀ m, m ≤ 128 → Net.dtoi (dec m) = some (m, (dec m).length) := by
    intro m hm
    have := Net.dtoi_dec (m := m) (by unfold Net.big; omega) (s := []) Net.Stops.nil
    simpa using this
  have h1 := key m hm
  rw [h, key n hn] at h1
  exact (congrArg Prod.fst (Option.some.inj h1)).symm

theorem slash_split {x y r s : Str} (hx : '/' ∉ x) (hy : '/' ∉ y) (h : x ++ ['/'] ++ r = y ++ ['/'] ++ s) :
    x = y ∧ r = s := by
  induction x generalizing y with
  | nil => cases y with
    | nil => simpa using h
    | cons c y =>
      simp only [List.nil_append, List.cons_append] at h
      exact absurd ((List.cons.inj h).1 ▸ List.mem_cons_self) hy
  | cons c x ih => cases y with
    | nil =>
      simp only [List.nil_append, List.cons_append] at h
      exact absurd ((List.cons.inj h).1 ▸ List.mem_cons_self) hx
    | cons d y =>
      simp only [List.cons_append] at h
      obtain ⟨rfl, h2⟩ := List.cons.inj h
      have := ih (fun hc => hx (List.mem_cons_of_mem _ hc)) (fun hc => hy (List.mem_cons_of_mem _ hc)) h2
      exact ⟨by rw [this.1], this.2⟩

theorem V6.string_chars (a : U128) : '/' ∉ V6.addressString a := by
  intro hc
  by_cases h : Mapped a
  · rw [V6.addressString_mapped h] at hc; exact (V4.string_chars _ _ hc).2 rfl
  · rw [V6.addressString_plain h] at hc; exact (text6_chars _ _ hc).2 rfl

theorem V4.prefixString_inj {p q : Prefix (BitVec 32)} (hp : p.WF) (hq : q.WF)
    (h : V4.prefixString p = V4.prefixString q) : p = q := by
  have h1 := C45_v4_roundtrip.2 p hp
  rw [h, C45_v4_roundtrip.2 q hq] at h1
  exact (Option.some.inj h1).symm

theorem V6.prefixString_inj {p q : Prefix U128} (hp : p.WF) (hq : q.WF)
    (h : V6.prefixString p = V6.prefixString q) : p = q := by
  obtain ⟨h1, h2⟩ := slash_split (V6.string_chars _) (V6.string_chars _) h
  have h1 := C45_v6_injective _ _ h1
  have h2 := dec_inj hp hq h2
  cases p; cases q
  simp only at h1 h2
  rw [h1, h2]

theorem map_inj_on {β γ : Type} {f : β → γ} {P : β → Prop} (hf : ∀ x y, P x → P y → f x = f y → x = y) :
    ∀ {xs ys : List β}, (∀ x ∈ xs, P x) → (∀ x ∈ ys, P x) → xs.map f = ys.map f → xs = ys
  | [], [], _, _, _ => rfl
  | [], _ :: _, _, _, h => by simp at h
  | _ :: _, [], _, _, h => by simp at h
  | x :: xs, y :: ys, hx, hy, h => by
    simp only [List.map_cons, List.cons.injEq] at h
    rw [hf x y (hx x List.mem_cons_self) (hy y List.mem_cons_self) h.1,
      map_inj_on hf (fun a ha => hx a (List.mem_cons_of_mem _ ha)) (fun a ha => hy a (List.mem_cons_of_mem _ ha)) h.2]

theorem prefixes_of_walk {α : Type} [LawfulGoWord α] {u : IPSet α} {L : List (Prefix α)}
    (h : ∀ (σ : Type) (cb : Prefix α → σ → σ × Bool) (st : σ), u.walkPrefixes cb st = visit cb L st) :
    u.trie.prefixes = L := by
  have h1 := h (List (Prefix α)) (fun p st => (st ++ [p], true)) []
  rw [IPSet.walkPrefixes_eq, visit_true, visit_true] at h1
  have hf : ∀ (L A : List (Prefix α)), L.foldl (fun st p => st ++ [p]) A = A ++ L := by
    intro L
    induction L with
    | nil => simp
    | cons x L ih => intro A; simp [ih]
  have h2 := congrArg Prod.fst h1
  simp only [hf, List.nil_append] at h2
  exact h2

theorem stringWith_iff {α : Type} [LawfulIPFamily α] {str : Prefix α → Str}
    (hi : ∀ p q : Prefix α, p.WF → q.WF → str p = str q → p = q) (hc : ∀ p : Prefix α, ',' ∉ str p ∧ str p ≠ [])
    (s t : IPSet α) (hs : s.Reachable) (ht : t.Reachable) : s.stringWith str = t.stringWith str ↔ s.equal t = true := by
  rw [IPSet.stringWith_eq, IPSet.stringWith_eq, C13_equal_iff_prefixes s t hs ht]
  constructor
  · intro h
    have h := commaSep_inj (by simpa using fun p _ => hc p) (by simpa using fun p _ => hc p)
      (List.append_cancel_left (List.append_cancel_right h))
    have h := map_inj_on (P := Prefix.WF) hi hs.inv.prefixes_wf ht.inv.prefixes_wf h
    exact ⟨_, fun σ cb st => IPSet.walkPrefixes_eq _ _ _, fun σ cb st => by
      rw [IPSet.walkPrefixes_eq]; exact congrArg (fun L => visit cb L st) h.symm⟩
  · rintro ⟨L, h1, h2⟩
    rw [prefixes_of_walk h1, prefixes_of_walk h2]

/-! ### C47 -/

/-- The text is the list of the prefixes that `WalkPrefixes` visits, in that order, in brackets and separated
    by a comma and a space. -/
theorem C47_format :
    (∀ (s : IPSet (BitVec 32)) (L : List (Prefix (BitVec 32))),
      (∀ (σ : Type) (cb : Prefix (BitVec 32) → σ → σ × Bool) (st : σ), s.walkPrefixes cb st = visit cb L st) →
      V4.setString s = ['['] ++ commaSep (L.map V4.prefixString) ++ [']']) ∧
    (∀ (s : IPSet U128) (L : List (Prefix U128)),
      (∀ (σ : Type) (cb : Prefix U128 → σ → σ × Bool) (st : σ), s.walkPrefixes cb st = visit cb L st) →
      V6.setString s = ['['] ++ commaSep (L.map V6.prefixString) ++ [']']) :=
  ⟨fun s L h => by rw [V4.setString, IPSet.stringWith_eq, prefixes_of_walk h],
    fun s L h => by rw [V6.setString, IPSet.stringWith_eq, prefixes_of_walk h]⟩

/-- Two sets have the same text exactly if `Equal` says that they are equal. -/
theorem C47_equal :
    (∀ s t : IPSet (BitVec 32), s.Reachable → t.Reachable → (V4.setString s = V4.setString t ↔ s.equal t = true)) ∧
    (∀ s t : IPSet U128, s.Reachable → t.Reachable → (V6.setString s = V6.setString t ↔ s.equal t = true)) :=
  ⟨stringWith_iff (fun _ _ => V4.prefixString_inj) fun p => prefix_no_comma (V4.addressString_no_comma p.addr).1,
    stringWith_iff (fun _ _ => V6.prefixString_inj) fun p => prefix_no_comma (V6.addressString_no_comma p.addr).1⟩

/-- The text determines the addresses. -/
theorem C47_determines :
    (∀ s t : IPSet (BitVec 32), s.Reachable → t.Reachable → V4.setString s = V4.setString t →
      ∀ a, s.has a ↔ t.has a) ∧
    (∀ s t : IPSet U128, s.Reachable → t.Reachable → V6.setString s = V6.setString t → ∀ a, s.has a ↔ t.has a) :=
  ⟨fun s t hs ht h => C13_equal_sound s t hs ht ((C47_equal.1 s t hs ht).mp h),
    fun s t hs ht h => C13_equal_sound s t hs ht ((C47_equal.2 s t hs ht).mp h)⟩

/-- An IPv4 text can be read back: it consists of texts without commas, `PrefixFromString` accepts each,
    and the prefixes cover exactly the set. -/
theorem C47_readable (s : IPSet (BitVec 32)) (hs : s.Reachable) :
    ∃ parts : List Str, V4.setString s = ['['] ++ commaSep parts ++ [']'] ∧ (∀ x ∈ parts, ',' ∉ x) ∧
      ∃ L : List (Prefix (BitVec 32)), parts.map V4.prefixFromString = L.map some ∧ ∀ a, s.has a ↔ ∃ p ∈ L, InPrefix p a := by
  obtain ⟨L, h1, _, h3, h4⟩ := C16_walkPrefixes s hs
  refine ⟨L.map V4.prefixString, C47_format.1 s L h1, ?_, L, ?_, h3⟩
  · intro x hx
    obtain ⟨p, _, rfl⟩ := List.mem_map.1 hx
    exact (prefix_no_comma (V4.addressString_no_comma p.addr).1).1
  · rw [List.map_map]
    apply List.map_congr_left
    intro p hp
    exact C45_v4_roundtrip.2 p (h4 p hp).1

/-- Sets with the same addresses may have different texts, because the texts show host bits. -/
theorem C47_hostbits : ∃ s t : IPSet (BitVec 32), s.Reachable ∧ t.Reachable ∧ (∀ a, s.has a ↔ t.has a) ∧
    V4.setString s ≠ V4.setString t := by
  obtain ⟨s, t, hs, ht, h, he⟩ := C13_equal_counterexample
  refine ⟨s, t, hs, ht, h, fun e => ?_⟩
  rw [(C47_equal.1 s t hs ht).mp e] at he
  cases he

/-- The text of a range is `[first,last]` and determines it; the text of a mask determines it. -/
theorem C47_range_mask :
    (∀ r s : Range (BitVec 32), V4.rangeString r = V4.rangeString s → r = s) ∧
    (∀ r s : Range U128, V6.rangeString r = V6.rangeString s → r = s) ∧
    (∀ m n : BitVec 32, V4.maskString m = V4.maskString n → m = n) ∧
    (∀ m n : U128, V6.maskString m = V6.maskString n → m = n) := by
  have v4inj : ∀ a b : BitVec 32, V4.addressString a = V4.addressString b → a = b := by
    intro a b h
    have h1 := C45_v4_roundtrip.1 a
    rw [h, C45_v4_roundtrip.1] at h1
    exact (Option.some.inj h1).symm
  have key : ∀ {x y r s : Str}, ',' ∉ x → ',' ∉ y → ['['] ++ x ++ [','] ++ r ++ [']'] = ['['] ++ y ++ [','] ++ s ++ [']'] →
      x = y ∧ r = s := by
    intro x y r s hx hy h
    have h := List.append_cancel_right h
    rw [List.append_assoc, List.append_assoc, List.append_assoc, List.append_assoc] at h
    have h := List.append_cancel_left h
    obtain ⟨h1, h2⟩ := comma_split hx hy (.inr rfl) (.inr rfl) h
    exact ⟨h1, List.append_cancel_left h2⟩
  refine ⟨fun r s h => ?_, fun r s h => ?_, fun m n h => v4inj _ _ h, fun m n h => C45_v6_injective _ _ h⟩
  · obtain ⟨h1, h2⟩ := key (V4.addressString_no_comma _).1 (V4.addressString_no_comma _).1 h
    have h1 := v4inj _ _ h1
    have h2 := v4inj _ _ h2
    cases r; cases s
    simp only at h1 h2
    rw [h1, h2]
  · obtain ⟨h1, h2⟩ := key (V6.addressString_no_comma _).1 (V6.addressString_no_comma _).1 h
    have h1 := C45_v6_injective _ _ h1
    have h2 := C45_v6_injective _ _ h2
    cases r; cases s
    simp only at h1 h2
    rw [h1, h2]

/-! ### examples -/

theorem dec_two {n : Nat} (h : ¬ n < 10) (h' : n / 10 < 10) : dec n = [digit (n / 10), digit (n % 10)] := by
  rw [Net.dec_ge h, Net.dec_lt h']; rfl

/-- 10.0.0.0/24 and 10.0.2.0/24 -/
def Sample.two24 : IPSet (BitVec 32) := (SetI.prefix ⟨0x0a000000#32, 24⟩).toSet.union (.prefix ⟨0x0a000200#32, 24⟩)

example : V4.setString Sample.two24 = "[10.0.0.0/24, 10.0.2.0/24]".toList := by
  have : Sample.two24.trie.prefixes = [⟨0x0a000000#32, 24⟩, ⟨0x0a000200#32, 24⟩] := by
    show (SetNode.union (SetNode.fromPrefix _) (SetNode.fromPrefix _)).prefixes = _
    rw [SetNode.fromPrefix, SetNode.fromPrefix, SetNode.union]
    decide
  rw [V4.setString, IPSet.stringWith_eq, this]
  simp only [List.map_cons, List.map_nil, commaSep, V4.prefixString, V4.addressString]
  rw [dec_two (n := 24) (by decide) (by decide), show V4.toBytes 0x0a000000#32 = (10, 0, 0, 0) by decide,
    show V4.toBytes 0x0a000200#32 = (10, 0, 2, 0) by decide]
  simp only [show (10 : BitVec 8).toNat = 10 by decide, show (0 : BitVec 8).toNat = 0 by decide,
    show (2 : BitVec 8).toNat = 2 by decide]
  rw [dec_two (n := 10) (by decide) (by decide), Net.dec_lt (n := 0) (by decide), Net.dec_lt (n := 2) (by decide)]
  decide
example : Sample.two24.Reachable := .union _ _ (.prefix _ (by decide)) (.prefix _ (by decide))
example : V4.setString IPSet.empty = "[]".toList := by rw [V4.setString, IPSet.stringWith_eq]; decide
example : V6.setString (SetI.prefix ⟨⟨0x20010db800000000, 0⟩, 32⟩).toSet = "[2001:db8::/32]".toList := by
  rw [V6.setString, IPSet.stringWith_eq]
  show ['['] ++ (V6.addressString ⟨0x20010db800000000, 0⟩ ++ ['/'] ++ dec 32) ++ [']'] = _
  rw [dec_two (by decide) (by decide)]
  decide

end Addrs
