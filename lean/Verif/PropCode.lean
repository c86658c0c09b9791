import Verif.PropConcSets
import Verif.PropTableDiff
import Verif.PropDiffOrder
import Verif.PropAggExact
import Verif.PropAlloc
/-
  The properties C09–C13, C16, C21, C22, C25–C28, C31 and C32 once more, for the code on pointers: what a call
  on `Set` and `Table` values returns in every execution of the machine of `Verif/Machine.lean`, with its
  pointer comparisons, shared nodes, copies and in-place writes to new nodes, and whatever other goroutines do.
  (C09 etc. are stated over the model without pointers; these theorems say that nothing is lost in between.)
-/
set_option linter.unusedSectionVars false
namespace Addrs
open GoWord LawfulGoWord

section
variable {α σ : Type} [HeapFamily α] {F : Nat}

/-- address `a` is in the `Set` value `t`, with the nodes in `v` -/
def Obj.Members (v : View α Empty) (t : Obj Empty) (a : α) : Prop := ∃ S : IPSet α, t.Holds v S ∧ S.has a

/-- address `a` is in the argument, which is not a mutable set -/
def SetArg.Members (v : View α Empty) : SetArg α → α → Prop
  | .nil, _ => False
  | .address b, a => a = b
  | .prefix p, a => InPrefix p a
  | .range r, a => InRange r a
  | .set t, a => t.Members v a
  | .obj _, _ => False

/-- an argument that is not a mutable set, and not a range that C08 shows to be converted wrongly -/
def SetArg.Value : SetArg α → Prop
  | .obj _ => False
  | .range r => ¬ SetNode.BadRange r
  | _ => True

theorem Obj.Holds.members {v : View α Empty} {t : Obj Empty} {S : IPSet α} (h : t.Holds v S) (a : α) :
    t.Members v a ↔ S.has a :=
  ⟨fun ⟨S', h1, h2⟩ => by rw [h.functional h1]; exact h2, fun h1 => ⟨S, h, h1⟩⟩

/-- what an argument is read as -/
theorem SetArg.Is.members {v : View α Empty} {arg : SetArg α} {evs : List (Event Empty)} {A : IPSet α}
    (h : arg.Is v evs A) (hv : arg.Value) : A.Reachable ∧ ∀ a, arg.Members v a ↔ A.has a := by
  cases arg with
  | nil => obtain ⟨_, rfl⟩ := h; exact ⟨.empty, fun a => ⟨False.elim, fun x => (not_has_empty a x).elim⟩⟩
  | address b => obtain ⟨_, rfl⟩ := h; exact ⟨.address b, fun a => (eq_comm.trans (C08_address b a).symm)⟩
  | «prefix» p => obtain ⟨_, rfl, hp⟩ := h; exact ⟨.prefix p hp, fun a => (C08_prefix p hp a).symm⟩
  | range r => obtain ⟨_, rfl, hr⟩ := h; exact ⟨.range r hr, fun a => (C08_range_partial r hr hv a).symm⟩
  | set t => obtain ⟨_, h1⟩ := h; exact ⟨h1.2.1, fun a => h1.members a⟩
  | obj o => exact hv.elim

theorem sread {s : SState α σ F} {t : Obj Empty} {P : IPSet α → Prop} {tr : List (Event Empty)}
    (h : SRead (.set t) P tr s.mem) : ∃ S, t.Holds s.mem S ∧ S.Reachable ∧ P S := by
  obtain ⟨S, ⟨_, h1⟩, h2⟩ := h
  exact ⟨S, h1, h1.2.1, h2⟩

theorem sread2 {s : SState α σ F} {t : Obj Empty} {arg : SetArg α} (hv : arg.Value) {P : IPSet α → IPSet α → Prop}
    {tr : List (Event Empty)} (h : SRead2 (.set t) arg P tr s.mem) :
    ∃ S A, t.Holds s.mem S ∧ S.Reachable ∧ A.Reachable ∧ (∀ a, arg.Members s.mem a ↔ A.has a) ∧ P S A := by
  obtain ⟨S, A, tr1, tr2, ⟨_, h1⟩, h2, _, h3⟩ := h
  obtain ⟨h4, h5⟩ := h2.members hv
  exact ⟨S, A, h1, h1.2.1, h4, h5, h3⟩

/-- `t.Union(arg)` -/
theorem C09_code (hF : setBound α ≤ F) {s : SState α σ F} (h : s.Reach) {i : Nat} {t : Obj Empty} {arg : SetArg α}
    {z : SVal α σ} (hs : .start i (SCall.union (.set t) arg) ∈ s.log) (hd : .done i z ∈ s.log) (hv : arg.Value) :
    ∃ r, z = .set r ∧ ∀ a, r.Members s.mem a ↔ t.Members s.mem a ∨ arg.Members s.mem a := by
  obtain ⟨S, A, h1, h2, h3, h4, r, h5, h6⟩ := sread2 hv (done_spec' (setLib_ok hF) h hs hd)
  exact ⟨r, h5, fun a => by rw [h6.members, h1.members, h4, has_union' h2 h3]⟩

/-- `t.Intersection(arg)` -/
theorem C10_code (hF : setBound α ≤ F) {s : SState α σ F} (h : s.Reach) {i : Nat} {t : Obj Empty} {arg : SetArg α}
    {z : SVal α σ} (hs : .start i (SCall.intersection (.set t) arg) ∈ s.log) (hd : .done i z ∈ s.log) (hv : arg.Value) :
    ∃ r, z = .set r ∧ ∀ a, r.Members s.mem a ↔ t.Members s.mem a ∧ arg.Members s.mem a := by
  rcases done_spec' (setLib_ok hF) h hs hd with ⟨h1, _⟩ | h1
  · cases h1
  · obtain ⟨S, A, h1, h2, h3, h4, r, h5, h6⟩ := sread2 hv h1
    exact ⟨r, h5, fun a => by rw [h6.members, h1.members, h4, has_inter' h2 h3]⟩

/-- `t.Difference(arg)` -/
theorem C11_code (hF : setBound α ≤ F) {s : SState α σ F} (h : s.Reach) {i : Nat} {t : Obj Empty} {arg : SetArg α}
    {z : SVal α σ} (hs : .start i (SCall.difference (.set t) arg) ∈ s.log) (hd : .done i z ∈ s.log) (hv : arg.Value) :
    ∃ r, z = .set r ∧ ∀ a, r.Members s.mem a ↔ t.Members s.mem a ∧ ¬ arg.Members s.mem a := by
  rcases done_spec' (setLib_ok hF) h hs hd with ⟨h1, _⟩ | h1
  · cases h1
  · obtain ⟨S, A, h1, h2, h3, h4, r, h5, h6⟩ := sread2 hv h1
    exact ⟨r, h5, fun a => by rw [h6.members, h1.members, h4, has_diff' h2 h3]⟩

/-- `t.Contains(arg)` -/
theorem C12_code (hF : setBound α ≤ F) {s : SState α σ F} (h : s.Reach) {i : Nat} {t : Obj Empty} {arg : SetArg α}
    {z : SVal α σ} (hs : .start i (SCall.contains (.set t) arg) ∈ s.log) (hd : .done i z ∈ s.log) (hv : arg.Value) :
    ∃ b, z = .bool b ∧ (b = true ↔ ∀ a, arg.Members s.mem a → t.Members s.mem a) := by
  obtain ⟨S, A, h1, h2, h3, h4, h5⟩ := sread2 hv (done_spec' (setLib_ok hF) h hs hd)
  refine ⟨_, h5, ?_⟩
  rw [C12_contains S (.set A) h2 h3]
  simp only [h4, h1.members]
  exact Iff.rfl

/-- `t.IsEmpty()` -/
theorem C12_code_isEmpty (hF : setBound α ≤ F) {s : SState α σ F} (h : s.Reach) {i : Nat} {t : Obj Empty}
    {z : SVal α σ} (hs : .start i (SCall.isEmpty (.set t)) ∈ s.log) (hd : .done i z ∈ s.log) :
    ∃ b, z = .bool b ∧ (b = true ↔ ∀ a, ¬ t.Members s.mem a) := by
  obtain ⟨S, h1, h2, h3⟩ := sread (done_spec' (setLib_ok hF) h hs hd)
  refine ⟨_, h3, ?_⟩
  rw [C12_isEmpty S h2]
  simp only [h1.members]

/-- `IsEmpty` of ipv6, which does not count but looks for an active node -/
theorem C12_code_isEmpty_v6 (hF : setBound U128 ≤ F) {s : SState U128 σ F} (h : s.Reach) {i : Nat} {t : Obj Empty}
    {z : SVal U128 σ} (hs : .start i (SCall.isEmpty (.set t)) ∈ s.log) (hd : .done i z ∈ s.log) :
    ∃ b, z = .bool b ∧ (b = true ↔ ∀ a, ¬ t.Members s.mem a) := C12_code_isEmpty hF h hs hd

/-- `t.Equal(u)` is never true of different sets (with host bits it may be false of equal ones, C13) -/
theorem C13_code (hF : setBound α ≤ F) {s : SState α σ F} (h : s.Reach) {i : Nat} {t u : Obj Empty}
    {z : SVal α σ} (hs : .start i (SCall.equal t u) ∈ s.log) (hd : .done i z ∈ s.log) :
    ∃ b S A, z = .bool b ∧ t.Holds s.mem S ∧ u.Holds s.mem A ∧ (b = true → ∀ a, t.Members s.mem a ↔ u.Members s.mem a) ∧
      (b = true ↔ S.trie.prefixes = A.trie.prefixes) ∧ (S.Tidy → A.Tidy → (b = true ↔ ∀ a, t.Members s.mem a ↔ u.Members s.mem a)) := by
  obtain ⟨S, A, tr1, tr2, ⟨_, h1⟩, ⟨_, h2⟩, _, h3⟩ := done_spec' (setLib_ok hF) h hs hd
  refine ⟨_, S, A, h3, h1, h2, fun hb a => ?_, ?_, fun hS hA => ?_⟩
  · rw [h1.members, h2.members]; exact C13_equal_sound S A h1.2.1 h2.2.1 hb a
  · rw [C13_equal_iff_prefixes S A h1.2.1 h2.2.1]
    constructor
    · rintro ⟨L, e1, e2⟩
      have k : ∀ (u : IPSet α), (∀ (σ : Type) (cb : Prefix α → σ → σ × Bool) (st : σ), u.walkPrefixes cb st = visit cb L st) →
          ∀ (cb : Prefix α → List (Prefix α) → List (Prefix α) × Bool) st, visit cb u.trie.prefixes st = visit cb L st :=
        fun u hu cb st => (IPSet.walkPrefixes_eq _ _ _).symm.trans (hu _ cb st)
      have col : ∀ (L acc : List (Prefix α)), (visit (fun p acc => (acc ++ [p], true)) L acc).1 = acc ++ L := by
        intro L
        induction L with
        | nil => intro acc; simp [visit]
        | cons p L ih => intro acc; simp only [visit]; rw [ih]; simp
      have l1 := congrArg Prod.fst (k S e1 (fun p acc => (acc ++ [p], true)) [])
      have l2 := congrArg Prod.fst (k A e2 (fun p acc => (acc ++ [p], true)) [])
      rw [col, col] at l1 l2
      simp only [List.nil_append] at l1 l2
      rw [l1, l2]
    · intro e
      exact ⟨S.trie.prefixes, fun _ _ _ => IPSet.walkPrefixes_eq _ _ _, fun _ _ _ => by rw [e]; exact IPSet.walkPrefixes_eq _ _ _⟩
  · rw [C13_equal_tidy_partial S A hS hA]
    simp only [h1.members, h2.members]

/-- `t.WalkPrefixes(cb)` -/
theorem C16_code (hF : setBound α ≤ F) {s : SState α σ F} (h : s.Reach) {i : Nat} {t : Obj Empty}
    {cb : Prefix α → σ → σ × Bool} {st : σ} {z : SVal α σ} (hs : .start i (SCall.walk t cb st) ∈ s.log)
    (hd : .done i z ∈ s.log) :
    ∃ L : List (Prefix α), z = .walked (visit cb L st) ∧
      (L.Pairwise fun p q => ∀ x y, InPrefix p x → InPrefix q y → toNat x < toNat y) ∧
      (∀ a, t.Members s.mem a ↔ ∃ p ∈ L, InPrefix p a) := by
  obtain ⟨S, h1, h2, h3⟩ := sread (done_spec' (setLib_ok hF) h hs hd)
  obtain ⟨L, e1, e2, e3, _⟩ := C16_walkPrefixes S h2
  refine ⟨L, by rw [h3, e1], e2, fun a => ?_⟩
  rw [h1.members, e3]

/-- `t.FindAvailablePrefix(arg, n)` -/
theorem C21_code (hF : setBound α ≤ F) {s : SState α σ F} (h : s.Reach) {i n : Nat} {t : Obj Empty} {arg : SetArg α}
    {z : SVal α σ} (hs : .start i (SCall.find t arg n) ∈ s.log) (hd : .done i z ∈ s.log) (hv : arg.Value) (hn : n ≤ width α) :
    (∃ p, z = .found (.ok p) ∧ p.len = n ∧ p.WF ∧ ∀ a, InPrefix p a → t.Members s.mem a ∧ ¬ arg.Members s.mem a) ∨
    (z = .found .err ∧ ∀ P : Prefix α, P.WF → P.len = n → ∃ a, InPrefix P a ∧ ¬ (t.Members s.mem a ∧ ¬ arg.Members s.mem a)) := by
  obtain ⟨S, A, h1, h2, h3, h4, h5⟩ := sread2 hv (done_spec' (setLib_ok hF) h hs hd)
  rcases C22_bestFit S (.set A) n h2 h3 hn (by simp) with ⟨g1, g2⟩ | ⟨p, B, g1, _⟩
  · right
    refine ⟨by rw [h5, g1], fun P hP hl => ?_⟩
    refine Classical.byContradiction fun hno => g2 P hP hl fun a ha => ?_
    refine Classical.byContradiction fun hna => hno ⟨a, ha, fun ⟨m1, m2⟩ => hna ⟨(h1.members a).mp m1, fun m3 => m2 ((h4 a).mpr m3)⟩⟩
  · left
    obtain ⟨k1, k2, k3⟩ := C21_sound_partial S (.set A) n h2 h3 hn p g1
    refine ⟨p, by rw [h5, g1], k1, k2, fun a ha => ?_⟩
    rw [h1.members, h4]
    exact k3 a ha

end

/-- `t.NumAddresses()` of IPv4 -/
theorem C15_code {σ : Type} {F : Nat} (hF : setBound (BitVec 32) ≤ F) {s : SState (BitVec 32) σ F} (h : s.Reach) {i : Nat}
    {t : Obj Empty} {z : SVal (BitVec 32) σ} (hs : .start i (SCall.size (.set t)) ∈ s.log) (hd : .done i z ∈ s.log) :
    ∃ n : BitVec 64, z = .size n ∧ n.toNat = numOf (α := BitVec 32) (fun a => t.Members s.mem a) := by
  obtain ⟨S, h1, h2, h3⟩ := sread (done_spec' (setLib_ok hF) h hs hd)
  refine ⟨_, h3, (C15_numAddresses S h2).1.trans ?_⟩
  unfold numOf
  apply List.countP_congr
  intro k _
  simp only [decide_eq_true_eq]
  rw [h1.members]
  exact Iff.rfl

section
variable {α D σ : Type} [LawfulGoWord α] [Inhabited D] [Comparable D] {F : Nat}

/-- the entries of the `Table` value `t`, in the order in which `Walk` reports them -/
def Obj.Lists (v : View α D) (t : Obj D) (L : List (Prefix α × D)) : Prop :=
  ∃ T : Table α D, t.Is v T ∧ T.Reachable ∧ L = T.listed

theorem Obj.Lists.functional {v : View α D} {t : Obj D} {L M : List (Prefix α × D)} (h : t.Lists v L) (h' : t.Lists v M) :
    L = M := by
  obtain ⟨T, h1, _, rfl⟩ := h
  obtain ⟨T', h2, _, rfl⟩ := h'
  rw [h1.functional h2]

theorem vread {s : TState α D σ F} {t : Obj D} {ρ : Type} {f : Table α D → ρ} {z : ρ} {tr : List (Event D)}
    (h : ValSpec t f tr z s.mem) : ∃ T, t.Is s.mem T ∧ T.Reachable ∧ z = f T := by
  obtain ⟨_, T, h1, h2, h3⟩ := h
  exact ⟨T, h1, h2, h3⟩

/-- `t.Get(k)` finds the entry with the key of `k`, if there is one -/
theorem C23_code_get (hF : 2 * width α + 3 ≤ F) {s : TState α D σ F} (h : s.Reach) {i : Nat} {t : Obj D} {k : PrefixI α}
    {z : TVal α D σ} (hs : .start i (.xget t k) ∈ s.log) (hd : .done i z ∈ s.log) :
    ∃ L v b, t.Lists s.mem L ∧ z = .result (.found v b) ∧
      (b = true → ∃ p, (p, v) ∈ L ∧ keyOf p = keyOf k.toPrefix) ∧
      (b = false → v = default ∧ ∀ x ∈ L, keyOf x.1 ≠ keyOf k.toPrefix) := by
  obtain ⟨T, h1, h2, h3⟩ := vread (done_spec' (tableLib_ok hF) h hs hd)
  refine ⟨T.listed, (T.get k).1, (T.get k).2, ⟨T, h1, h2, rfl⟩, h3, fun hb => ?_, fun hb => ?_⟩
  · exact (C25_get T h2 k _).mp (by rw [← hb])
  · have hno : ∀ x ∈ T.listed, keyOf x.1 ≠ keyOf k.toPrefix := fun x hx hk => by
      have := (C25_get T h2 k x.2).mpr ⟨x.1, hx, hk⟩
      rw [this] at hb; cases hb
    refine ⟨?_, hno⟩
    have gs := Table.get_spec h2.good k
    by_cases hx : ∃ x, x ∈ T.trie.entries ∧ SameKey x.1 k.toPrefix
    · obtain ⟨x, hx, hk⟩ := hx
      rw [gs.1 x hx hk] at hb; cases hb
    · rw [gs.2 fun x a b => hx ⟨x, a, b⟩]

/-- `t.LongestMatch(k)` -/
theorem C25_code (hF : 2 * width α + 3 ≤ F) {s : TState α D σ F} (h : s.Reach) {i : Nat} {t : Obj D} {k : PrefixI α}
    {z : TVal α D σ} (hs : .start i (.xlongest t k) ∈ s.log) (hd : .done i z ∈ s.log) :
    ∃ L v b p, t.Lists s.mem L ∧ z = .match (v, b, p) ∧
      (b = true → (p, v) ∈ L ∧ ContainsP p k.toPrefix ∧ ∀ x ∈ L, ContainsP x.1 k.toPrefix → x.1.len ≤ p.len) ∧
      (b = false → v = default ∧ p = ⟨zero, 0⟩ ∧ ∀ x ∈ L, ¬ ContainsP x.1 k.toPrefix) := by
  obtain ⟨T, h1, h2, h3⟩ := vread (done_spec' (tableLib_ok hF) h hs hd)
  refine ⟨T.listed, (T.longestMatch k).1, (T.longestMatch k).2.1, (T.longestMatch k).2.2, ⟨T, h1, h2, rfl⟩, h3,
    fun hb => ?_, fun hb => ?_⟩
  · exact C25_longestMatch_found T h2 k _ _ (by rw [← hb])
  · have := C25_longestMatch_zero T k hb
    exact ⟨by rw [this], by rw [this], (C25_longestMatch_notFound T h2 k).mp hb⟩

/-- `t.NumEntries()` -/
theorem C26_code (hF : 2 * width α + 3 ≤ F) {s : TState α D σ F} (h : s.Reach) {i : Nat} {t : Obj D}
    {z : TVal α D σ} (hs : .start i (.xnum t) ∈ s.log) (hd : .done i z ∈ s.log) :
    ∃ L, t.Lists s.mem L ∧ (L.length < 2 ^ 32 → z = .num L.length) := by
  obtain ⟨T, h1, h2, h3⟩ := vread (done_spec' (tableLib_ok hF) h hs hd)
  exact ⟨T.listed, ⟨T, h1, h2, rfl⟩, fun hl => by rw [h3, C26_numEntries T h2 hl]⟩

/-- `t.Walk(cb)` -/
theorem C27_code (hF : 2 * width α + 3 ≤ F) {s : TState α D σ F} (h : s.Reach) {i : Nat} {t : Obj D}
    {cb : Prefix α → D → σ → σ × Bool} {st : σ} {z : TVal α D σ} (hs : .start i (.walk t cb st) ∈ s.log)
    (hd : .done i z ∈ s.log) :
    ∃ L, t.Lists s.mem L ∧ z = .walked (visit (fun x => cb x.1 x.2) L st) ∧
      L.Pairwise (fun x y => LexBefore x.1 y.1) := by
  obtain ⟨T, h1, h2, h3⟩ := vread (done_spec' (tableLib_ok hF) h hs hd)
  exact ⟨T.listed, ⟨T, h1, h2, rfl⟩, by rw [h3, C27_walk], C27_sorted T h2⟩

/-- `l.Diff(r, cb…)`: what the callbacks are told is exactly the list of changes between the entries of both tables
    (each key once, in the order of C29), with the pointer shortcut for shared sub-tables. -/
theorem C28_code (hF : 2 * width α + 3 ≤ F) {s : TState α D σ F} (h : s.Reach) {i : Nat} {l r : Obj D}
    {cb : TableDiffCallbacks α D σ} {st : σ} {z : TVal α D σ} (hs : .start i (.diff l r cb st) ∈ s.log)
    (hd : .done i z ∈ s.log) {e : D → D → Bool} (he : EqFn.val l.eq = some e) :
    ∃ (L R : List (Prefix α × D)) (C : List (Change α D)), l.Lists s.mem L ∧ r.Lists s.mem R ∧
      z = .walked (visit (Change.report e cb) C st) ∧ DiffOf L R C ∧
      C.Pairwise (fun c d => keyOf c.pfx ≠ keyOf d.pfx) := by
  obtain ⟨U, h1, h2, h3⟩ := done_spec' (tableLib_ok hF) h hs hd
  obtain ⟨T, h4, h5, h6⟩ := vread h3
  have he' : T.eq = some e := by rw [h4.2, he]
  exact ⟨T.listed, U.listed, Table.changes T U, ⟨T, h4, h5, rfl⟩, ⟨U, h1, h2, rfl⟩,
    by rw [h6, Table.diff_changes h5.good h2.good he' cb st], changes_diffOf h5 h2 he', Table.changes_pairwise h5.good h2.good⟩

/-- `t.Map(f)` for a mapper without effects: the same prefixes, the new values (or the old one, if the table's
    comparison calls the two equal) -/
theorem C31_code (hF : 2 * width α + 3 ≤ F) {s : TState α D Unit F} (h : s.Reach) {i : Nat} {t : Obj D}
    {f : Prefix α → D → D} {z : TVal α D Unit} (hs : .start i (.map t (some fun p v u => (f p v, u)) ()) ∈ s.log)
    (hd : .done i z ∈ s.log) {e : D → D → Bool} (he : EqFn.val t.eq = some e) :
    ∃ r L M, z = .mapped r () ∧ t.Lists s.mem L ∧ r.Lists s.mem M ∧
      M = L.map fun x => (x.1, if e x.2 (f x.1 x.2) then x.2 else f x.1 x.2) := by
  obtain ⟨r, u, h1, T', h2, h3⟩ := done_spec' (tableLib_ok hF) h hs hd
  obtain ⟨T, h4, h5, h6⟩ := vread h3
  rw [Prod.mk.injEq] at h6
  obtain ⟨rfl, rfl⟩ := h6
  have hg : (T.map (some fun p v (u : Unit) => (f p v, u)) ()).1.Reachable := .map T _ _ h5
  exact ⟨r, T.listed, _, h1, ⟨T, h4, h5, rfl⟩, ⟨_, h2, hg, rfl⟩, C31_map T h5 e (by rw [h4.2, he]) f⟩

/-- `t.Aggregate()` finds something for the same addresses, and never has more entries -/
theorem C32_code (hF : 2 * width α + 3 ≤ F) {s : TState α D σ F} (h : s.Reach) {i : Nat} {t : Obj D}
    {z : TVal α D σ} (hs : .start i (.aggregate t) ∈ s.log) (hd : .done i z ∈ s.log) {e : D → D → Bool}
    (he : EqFn.val t.eq = some e) (h1 : ∀ x, e x x = true) (h2 : ∀ x y, e x y = true → e y x = true)
    (h3 : ∀ x y z, e x y = true → e y z = true → e x z = true) :
    ∃ r L M, z = .table r ∧ t.Lists s.mem L ∧ r.Lists s.mem M ∧ M.length ≤ L.length ∧
      (∀ a, (∃ x ∈ M, InPrefix x.1 a) ↔ ∃ x ∈ L, InPrefix x.1 a) := by
  obtain ⟨r, h4, T', h5, h6, h7⟩ := done_spec' (tableLib_ok hF) h hs hd
  obtain ⟨T, h8, h9, h10⟩ := vread h7
  subst h10
  have hc : T.CmpOk := ⟨e, by rw [h8.2, he], h1, h2, h3⟩
  refine ⟨r, T.listed, T.aggregate.listed, h4, ⟨T, h8, h9, rfl⟩, ⟨_, h5, h6, rfl⟩, C33_length T h9 hc, fun a => ?_⟩
  have hf := C32_found T h9 hc a
  have key : ∀ W : Table α D, W.Reachable → ((W.longestMatch (.address a)).2.1 = true ↔ ∃ x ∈ W.listed, InPrefix x.1 a) := by
    intro W hW
    have hn := C25_longestMatch_notFound W hW (.address a)
    have hcp : ∀ x ∈ W.listed, (ContainsP x.1 (PrefixI.address a : PrefixI α).toPrefix ↔ InPrefix x.1 a) := fun x hx => by
      have hw := hW.good.inv.entries_wf ((Table.mem_listed hW.good).mp hx)
      exact ⟨And.right, fun h => ⟨hw, h⟩⟩
    constructor
    · intro ht
      refine Classical.byContradiction fun hno => ?_
      have := hn.mpr fun x hx hc => hno ⟨x, hx, (hcp x hx).mp hc⟩
      rw [ht] at this; cases this
    · rintro ⟨x, hx, hi⟩
      cases hb : (W.longestMatch (.address a)).2.1 with
      | true => rfl
      | false => exact (hn.mp hb x hx ((hcp x hx).mpr hi)).elim
  rw [← key T h9, ← key _ h6, hf]

/-- `t.Aggregate()`, exactly: with the entries of `t` as the plain map `m`, the result lists exactly the keys that the
    specification `PMap.aggregate` says, each once and with a value that compares equal. -/
theorem C33_code (hF : 2 * width α + 3 ≤ F) {s : TState α D σ F} (h : s.Reach) {i : Nat} {t : Obj D}
    {z : TVal α D σ} (hs : .start i (.aggregate t) ∈ s.log) (hd : .done i z ∈ s.log) {e : D → D → Bool}
    (he : EqFn.val t.eq = some e) (h1 : ∀ x, e x x = true) (h2 : ∀ x y, e x y = true → e y x = true)
    (h3 : ∀ x y z, e x y = true → e y z = true → e x z = true) :
    ∃ r L M, z = .table r ∧ t.Lists s.mem L ∧ r.Lists s.mem M ∧
      ∀ m : PMap D, (∀ κ v, m κ = some v ↔ ∃ p, (p, v) ∈ L ∧ keyOf p = κ) →
        (∀ p : Prefix α, p.WF → match m.aggregate (width α) e (keyOf p) with
          | some w => ∃ x ∈ M, keyOf x.1 = keyOf p ∧ e x.2 w = true ∧ ∀ y ∈ M, keyOf y.1 = keyOf p → y = x
          | none => ∀ x ∈ M, keyOf x.1 ≠ keyOf p) := by
  obtain ⟨r, h4, T', h5, h6, h7⟩ := done_spec' (tableLib_ok hF) h hs hd
  obtain ⟨T, h8, h9, h10⟩ := vread h7
  subst h10
  have he' : T.eq = some e := by rw [h8.2, he]
  have hc : T.CmpOk := ⟨e, he', h1, h2, h3⟩
  refine ⟨r, T.listed, T.aggregate.listed, h4, ⟨T, h8, h9, rfl⟩, ⟨_, h5, h6, rfl⟩, fun m hm p hp => ?_⟩
  have hsh : T.Shows m := by
    intro k hk
    cases hx : m (keyOf k.toPrefix) with
    | some v => exact (C25_get T h9 k v).mpr ((hm _ v).mp hx)
    | none =>
      refine (Table.get_spec h9.good k).2 fun y hy hy' => ?_
      have hl : (y.1, Table.unbox y.2) ∈ T.listed := by
        rw [Table.listed_eq]
        exact List.mem_map.mpr ⟨y, hy, rfl⟩
      have := (hm (keyOf k.toPrefix) (Table.unbox y.2)).mpr ⟨y.1, hl, (keyOf_eq (h9.good.inv.entries_wf hy)).mpr hy'⟩
      rw [hx] at this
      cases this
  have hx := C33_exact T h9 e he' hc m hsh (.prefix p) hp
  simp only [PrefixI.toPrefix] at hx
  cases ha : m.aggregate (width α) e (keyOf p) with
  | none =>
    rw [ha] at hx
    intro x hxm hk
    have hx : T.aggregate.get (.prefix p) = (default, false) := hx
    rw [(C25_get _ h6 (.prefix p) x.2).mpr ⟨x.1, hxm, hk⟩] at hx
    cases congrArg Prod.snd hx
  | some w =>
    rw [ha] at hx
    obtain ⟨v, hv, hw⟩ := hx
    obtain ⟨q, hq, hk⟩ := (C25_get _ h6 (.prefix p) v).mp hv
    refine ⟨(q, v), hq, hk, hw, fun y hy hyk => ?_⟩
    have g1 := (Table.mem_listed h6.good).mp hq
    have g2 := (Table.mem_listed h6.good).mp hy
    have := h6.good.inv.unique g2 g1 ((keyOf_eq (h6.good.inv.entries_wf g2)).mp (hyk.trans hk.symm))
    simp only [Prod.mk.injEq, Option.some.injEq] at this
    exact Prod.ext this.1 this.2

end
/-! ### the hypotheses are met -/

namespace Sample

/-- {10.0.0.0-10.0.0.255}, what the first `Union` of `srun2` returned -/
def y3 : Obj Empty := ⟨some 7, .nil⟩
/-- all the calls on values, in one execution, some of them overlapping -/
def srun3 : List (Sched SL) :=
  [.call (.union (.set y3) (.set y2)), .call (.intersection (.set y3) (.set y1)), .finish 12, .finish 13,
   .call (.difference (.set y3) b1), .call (.contains (.set y3) (.set y1)), .finish 15, .finish 14,
   .call (.isEmpty (.set y3)), .finish 16, .call (.equal y3 y2), .finish 17, .call (.walk y3 (fun _ u => (u, true)) ()),
   .finish 18, .call (.find y3 b1 25), .finish 19, .call (.size (.set y3)), .finish 20]
set_option maxRecDepth 100000 in
theorem srun3_ok : (exec t2 srun3).isSome := rfl
/-- the state after `srun3` -/
def t3 : State SL := after t2 srun3 srun3_ok
/-- what `srun3` adds to the log -/
def slog3 : List (Entry Empty SL.Call SL.Val) :=
  [.start 12 (.union (.set y3) (.set y2)), .start 13 (.intersection (.set y3) (.set y1)),
   .done 12 (.set ⟨some 9, .nil⟩), .done 13 (.set y1),
   .start 14 (.difference (.set y3) b1), .start 15 (.contains (.set y3) (.set y1)), .done 15 (.bool true),
   .done 14 (.set ⟨some 33, .nil⟩), .start 16 (.isEmpty (.set y3)), .done 16 (.bool false),
   .start 17 (.equal y3 y2), .done 17 (.bool false), .start 18 (.walk y3 (fun _ u => (u, true)) ()), .done 18 (.walked ((), true)),
   .start 19 (.find y3 b1 25), .done 19 (.found (.ok ⟨0x0a000080#32, 25⟩)), .start 20 (.size (.set y3)),
   .done 20 (.size (256#64 : BitVec 64))]
set_option maxRecDepth 100000 in
theorem t3_log : t3.log = t2.log ++ slog3 := rfl

theorem y3_known : t2.Known y3 := Or.inr ⟨6, .set y3, by rw [t2_log]; simp [slog2, y3], List.mem_singleton_self _⟩
theorem y2_known : t2.Known y2 := Or.inr ⟨10, .set y2, by rw [t2_log]; simp [slog2], List.mem_singleton_self _⟩

theorem t3_reach : t3.Reach := by
  refine t2_reach.steps (after_steps srun3_ok ?_)
  have k1 : t2.Known y1 := t1_steps.known y1_known
  have known : ∀ L : List (Obj Empty), (∀ x ∈ L, x = y1 ∨ x = y2 ∨ x = y3) → ∀ x ∈ L, t2.Known x := by
    intro L hL x hx
    rcases hL x hx with rfl | rfl | rfl
    · exact k1
    · exact y2_known
    · exact y3_known
  intro c hc
  simp only [srun3, List.mem_cons, reduceCtorEq, List.not_mem_nil, or_false, false_or] at hc
  rcases hc with h | h | h | h | h | h | h | h | h <;> cases h
  all_goals refine ⟨?_, known _ ?_⟩
  · trivial
  · show ∀ x ∈ ([y3, y2] : List (Obj Empty)), _
    simp
  · trivial
  · show ∀ x ∈ ([y3, y1] : List (Obj Empty)), _
    simp
  · trivial
  · show ∀ x ∈ ([y3] : List (Obj Empty)), _
    simp
  · trivial
  · show ∀ x ∈ ([y3, y1] : List (Obj Empty)), _
    simp
  · trivial
  · show ∀ x ∈ ([y3] : List (Obj Empty)), _
    simp
  · trivial
  · show ∀ x ∈ ([y3, y2] : List (Obj Empty)), _
    simp
  · trivial
  · show ∀ x ∈ ([y3] : List (Obj Empty)), _
    simp
  · exact ⟨by simp [b1], trivial⟩
  · show ∀ x ∈ ([y3] : List (Obj Empty)), _
    simp
  · trivial
  · show ∀ x ∈ ([y3] : List (Obj Empty)), _
    simp

theorem t3_at (k : Nat) {e : Entry Empty SL.Call SL.Val} (h : slog3[k]? = some e) : e ∈ t3.log := by
  rw [t3_log]; exact List.mem_append.mpr (Or.inr (List.mem_of_getElem? h))

example := C09_code (by decide) t3_reach (t3_at 0 rfl) (t3_at 2 rfl) trivial
example := C10_code (by decide) t3_reach (t3_at 1 rfl) (t3_at 3 rfl) trivial
example := C11_code (by decide) t3_reach (t3_at 4 rfl) (t3_at 7 rfl) trivial
example := C12_code (by decide) t3_reach (t3_at 5 rfl) (t3_at 6 rfl) trivial
example := C12_code_isEmpty (by decide) t3_reach (t3_at 8 rfl) (t3_at 9 rfl)
example := C13_code (by decide) t3_reach (t3_at 10 rfl) (t3_at 11 rfl)
example := C16_code (by decide) t3_reach (t3_at 12 rfl) (t3_at 13 rfl)
example := C21_code (by decide) t3_reach (t3_at 14 rfl) (t3_at 15 rfl) trivial (by decide)
example := C15_code (by decide) t3_reach (t3_at 16 rfl) (t3_at 17 rfl)

/-- the calls on `Table` values -/
def run3 : List (Sched TL) :=
  [.call (.xlongest x1 c2), .call (.xnum x1), .finish 13, .finish 12, .call (.walk x2 (fun _ _ u => (u, true)) ()), .finish 14,
   .call (.diff x1 x2 ⟨none, none, none, none⟩ ()), .finish 15, .call (.aggregate x2), .finish 16,
   .call (.map x1 (some fun _ v u => (v + 1, u)) ()), .finish 17]
set_option maxRecDepth 100000 in
theorem run3_ok : (exec s2 run3).isSome := rfl
/-- the state after `run3` -/
def s3 : State TL := after s2 run3 run3_ok
/-- what `run3` adds to the log -/
def log3 : List (Entry Nat TL.Call TL.Val) :=
  [.start 12 (.xlongest x1 c2), .start 13 (.xnum x1), .done 13 (.num 1), .done 12 (.match (7, true, ⟨0x0a000000#32, 8⟩)),
   .start 14 (.walk x2 (fun _ _ u => (u, true)) ()), .done 14 (.walked ((), true)),
   .start 15 (.diff x1 x2 ⟨none, none, none, none⟩ ()), .done 15 (.walked ((), true)),
   .start 16 (.aggregate x2), .done 16 (.table ⟨some 5, .nil⟩),
   .start 17 (.map x1 (some fun _ v u => (v + 1, u)) ()), .done 17 (.mapped ⟨some 6, .dflt⟩ ())]
set_option maxRecDepth 100000 in
theorem s3_log : s3.log = s2.log ++ log3 := rfl

theorem x2_known : s2.Known x2 := Or.inr ⟨10, .table x2, by rw [s2_log]; simp [log2], List.mem_singleton_self _⟩

theorem s3_reach : s3.Reach := by
  refine s2_reach.steps (after_steps run3_ok ?_)
  have k1 : s2.Known x1 := s1_steps.known x1_known
  have known : ∀ L : List (Obj Nat), (∀ x ∈ L, x = x1 ∨ x = x2) → ∀ x ∈ L, s2.Known x := by
    intro L hL x hx
    rcases hL x hx with rfl | rfl
    · exact k1
    · exact x2_known
  intro c hc
  simp only [run3, List.mem_cons, reduceCtorEq, List.not_mem_nil, or_false, false_or] at hc
  rcases hc with h | h | h | h | h | h <;> cases h
  all_goals refine ⟨?_, known _ ?_⟩
  · trivial
  · show ∀ x ∈ ([x1] : List (Obj Nat)), _
    simp
  · trivial
  · show ∀ x ∈ ([x1] : List (Obj Nat)), _
    simp
  · trivial
  · show ∀ x ∈ ([x2] : List (Obj Nat)), _
    simp
  · exact ⟨(fun h => nomatch h), fun _ _ h => nomatch h⟩
  · show ∀ x ∈ ([x1, x2] : List (Obj Nat)), _
    simp
  · exact Or.inr rfl
  · show ∀ x ∈ ([x2] : List (Obj Nat)), _
    simp
  · exact Or.inr (Or.inr rfl)
  · show ∀ x ∈ ([x1] : List (Obj Nat)), _
    simp

theorem s3_at (k : Nat) {e : Entry Nat TL.Call TL.Val} (h : log3[k]? = some e) : e ∈ s3.log := by
  rw [s3_log]; exact List.mem_append.mpr (Or.inr (List.mem_of_getElem? h))

theorem s2_at (k : Nat) {e : Entry Nat TL.Call TL.Val} (h : log2[k]? = some e) : e ∈ s2.log := by
  rw [s2_log]; exact List.mem_append.mpr (Or.inr (List.mem_of_getElem? h))

example := C23_code_get (by decide) s2_reach (s2_at 18 rfl) (s2_at 19 rfl)
example := C25_code (by decide) s3_reach (s3_at 0 rfl) (s3_at 3 rfl)
example := C26_code (by decide) s3_reach (s3_at 1 rfl) (s3_at 2 rfl)
example := C27_code (by decide) s3_reach (s3_at 4 rfl) (s3_at 5 rfl)
example := C28_code (by decide) s3_reach (s3_at 6 rfl) (s3_at 7 rfl) rfl
example := C32_code (by decide) s3_reach (s3_at 8 rfl) (s3_at 9 rfl) rfl (by simp) (by simp_all) (by simp_all)
example := C33_code (by decide) s3_reach (s3_at 8 rfl) (s3_at 9 rfl) rfl (by simp) (by simp_all) (by simp_all)
example := C31_code (by decide) s3_reach (f := fun _ v => v + 1) (s3_at 10 rfl) (s3_at 11 rfl) rfl
end Sample

end Addrs
