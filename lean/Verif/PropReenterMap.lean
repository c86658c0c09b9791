import Verif.PropReenter
import Verif.PropSeqTables
/-
  `Map` of tables with a mapper that is a program: which calls it makes and what it returns.
-/
set_option linter.unusedSectionVars false
namespace Addrs
open GoWord LawfulGoWord Heap Prog

/-- a mapper that takes the results one by one from a list -/
def popD {D : Type} [Inhabited D] : List D → D × List D
  | [] => (default, [])
  | w :: ws => (w, ws)

/-- The entries of the table that `Map` returns if its calls `N` return `ws`: those of the old one, with the
    results of the calls as values. -/
def mapResults {α D : Type} (N : List (Prefix α × D × Bool)) (ws : List D) : List (Prefix α × D) :=
  (N.zip ws).filterMap fun x => if x.1.2.2 then some (x.1.1, x.2) else none

section
variable {α D σ τ : Type} [LawfulGoWord α] [Inhabited D] [Comparable D] {F : Nat}

theorem Trie.map_popD (ve : Trie.Eq' D) (t : Trie α D) (ws : List D) :
    Trie.map (fun _ _ => Heap.pop) ve t (ws.map some) =
      ((Trie.map (fun _ _ s => let y := popD s; (some y.1, y.2)) ve t ws).1,
        (Trie.map (fun _ _ s => let y := popD s; (some y.1, y.2)) ve t ws).2.map some) := by
  induction t generalizing ws with
  | nil => rfl
  | node p d n h act l r ihl ihr =>
    have e : Heap.pop (ws.map some) = (some (popD ws).1, (popD ws).2.map some) := by
      cases ws <;> rfl
    simp only [Trie.map, e, ihl, ihr]

theorem foldl_popD (e : D → D → Bool) (he : ∀ v w, e v w = true → v = w) (N : List (Prefix α × D × Bool)) :
    ∀ (ws : List D) (acc : List (Prefix α × D)), ws.length = N.length →
      N.foldl (mapCall e fun _ _ => popD) (acc, ws) = (acc ++ mapResults N ws, []) := by
  induction N with
  | nil => intro ws acc h; cases ws with
    | nil => simp [mapResults]
    | cons w ws => simp at h
  | cons n N ih =>
    intro ws acc h
    cases ws with
    | nil => simp at h
    | cons w ws =>
      simp only [List.foldl_cons, mapCall, popD]
      rw [ih ws _ (by simpa using h)]
      cases hb : n.2.2 with
      | false => simp [mapResults, hb]
      | true =>
        by_cases hc : e n.2.1 w = true
        · simp [mapResults, hb, he _ _ hc]
        · simp [mapResults, hb, hc]

theorem TUses.bind {β γ : Type} {P : Prog α D β} (h : TUses F P) {k : β → Prog α D γ} (hk : ∀ b, TUses F (k b)) : TUses F (P >>= k) := by
  induction h with
  | ret b => exact hk b
  | panic => exact .panic
  | call c k' h ih => rw [Prog.bind_assoc]; exact .call c _ fun v => ih v hk
  | walk t cb s k' hcb h _ ih => rw [Prog.bind_assoc]; exact .walk t cb s _ hcb fun v => ih v hk
  | diff t u cb s k' h1 h2 h3 h4 h _ _ _ _ ih => rw [Prog.bind_assoc]; exact .diff t u cb s _ h1 h2 h3 h4 fun v => ih v hk
  | map t f s k' hf h _ ih => rw [Prog.bind_assoc]; exact .map t f s _ hf fun v => ih v hk

/-- how `Map` returns if the calls of the mapper end in this way -/
def MapReturns (t : Obj D) (T : Table α D) (v : View α D) : End (List D × σ) → End (Obj D × σ) → Prop
  | .ret (ws, s), r => ∃ p, r = .ret (⟨p, t.eq⟩, s) ∧ Obj.Is v ⟨p, t.eq⟩ (T.map (some fun _ _ => popD) ws).1
  | .panic, r => r = .panic
  | .stuck, r => r = .stuck

theorem run_xMapR (hF : 2 * width α + 3 ≤ F) {T : Table α D} (hT : T.Reachable) {H own : List Nat} {m : Mem α D} {t : Obj D} {s : τ}
    {f : Prefix α → D → τ → Prog α D (D × τ)} (hf : ∀ p d s, TameIn (f p d s) Nowhere) (hH : ∀ n ∈ H, n < m.heap.length)
    (ht : t.Is (hide H m.nodes) T) (hd : t.trie = none ∨ t.eq = .dflt) :
    ∃ out own' m' r, (xMapR F t (some f) s).run m = (r, m') ∧
      CallsEach (fun x => f x.1 x.2) (T.mapNodes.map fun n => (n.1, n.2.1)) s own m out own' m' ∧
      MapReturns t T (hide H m'.nodes) out r := by
  by_cases htn : t.trie = none
  · have hn : T.trie = .nil := by
      have := ht.1
      rw [htn] at this
      cases h : T.trie with
      | nil => rfl
      | node => rw [h] at this; cases this
    have hF' : F = (F - 1) + 1 := by omega
    refine ⟨.ret ([], s), own, m, .ret (⟨none, t.eq⟩, s), ?_, ?_, none, rfl, ?_⟩
    · simp only [xMapR, htn]
      rw [hF']; rfl
    · simp only [Table.mapNodes, hn, Trie.allNodes, List.map_nil]
      exact .nil (.refl _ _)
    · simp only [Table.map, hn, Trie.map]
      exact ⟨.nil, ht.2⟩
  · have hd : t.eq = .dflt := hd.resolve_left htn
    have hdeep := hT.deep
    have hEq : ∀ a b, t.eq.call a b = some (T.cmp a b) := by
      rw [hd]; exact EqFn.call_dflt T (by rw [← hd]; exact ht.2)
    obtain ⟨out, own', m', r, h1, h2, h3⟩ := run_mapR
      (f := fun p d s => f p (Table.unbox d) s >>= fun y => pure (some y.1, y.2))
      (fun p d s => Tame.seq (hf _ _ _) fun y W1 _ => trivial) (eq := t.eq.call) (ve := T.cmp) hEq F (t := T.trie)
      (by omega) (own := own) (s := s) hH ht.1
    obtain ⟨o, g1, rfl⟩ := CallsEach.image (g := fun x : Prefix α × D => f x.1 x.2) (f := fun x : Prefix α × Option D => (x.1, Table.unbox x.2))
      (h := some) h2
    rw [List.map_map] at g1
    have hl : (List.map ((fun x : Prefix α × Option D => (x.1, Table.unbox x.2)) ∘ fun n => (n.1, n.2.1)) T.trie.allNodes) =
        T.mapNodes.map fun n => (n.1, n.2.1) := by
      simp only [Table.mapNodes, List.map_map]; rfl
    rw [hl] at g1
    refine ⟨o, own', m', r.map fun x => (⟨x.1, t.eq⟩, x.2), ?_, g1, ?_⟩
    · simp only [xMapR, Prog.run_bind, h1]
      cases r <;> rfl
    · cases o with
      | panic => cases h3; rfl
      | stuck => cases h3; rfl
      | ret y =>
        obtain ⟨ws, s'⟩ := y
        obtain ⟨q, t', rfl, hq, ht'⟩ := h3
        refine ⟨q, rfl, ?_, ht.2⟩
        have := ht' []
        rw [List.append_nil, Trie.map_popD] at this
        have e : (Trie.map (fun _ _ s => let y := popD s; (some y.1, y.2)) T.cmp T.trie ws).1 = t' := congrArg Prod.fst this
        simp only [Table.map]
        rw [e]; exact hq

/-- what the table holds that `Map` returns -/
theorem Table.map_popD {T : Table α D} (hT : T.Reachable) {e : D → D → Bool} (he : T.eq = some e) (hd : ∀ v w, e v w = true → v = w)
    {ws : List D} (hl : ws.length = T.mapNodes.length) : (T.map (some fun _ _ => popD) ws).1.listed = mapResults T.mapNodes ws := by
  have := (Table.mapNodes_ok T hT e he).2 (fun _ _ => popD) ws
  rw [foldl_popD e hd _ _ _ hl, List.nil_append] at this
  exact (congrArg Prod.fst this).symm

/-- `t.Map(f)`, the mapper being client code: it is called for the entries that `t` has when `Map` is called (and,
    C31, for the prefixes that are no entries but have entries in both halves), in order, whatever it does.
    Between the calls, `Map` changes nothing that anybody else can see.  If all calls return, `Map` returns a
    table with the entries of `t` and the results of the calls as values. -/
theorem C57_map (hF : 2 * width α + 3 ≤ F) {s : TState α D σ F} (h : s.Reach) {t : Obj D} (ht : s.Known t) (hd : t.eq = .dflt)
    (f : Prefix α → D → τ → Prog α D (D × τ)) (hf : ∀ p d x, TUses F (f p d x)) :
    ∃ (m : Entries α D) (N : List (Prefix α × D × Bool)), m.Calls N ∧
      t.Lists s.mem ((N.filter fun n => n.2.2).map fun n => (n.1, n.2.1)) ∧
      ∀ st, ∃ out own m', CallsEach (fun x => f x.1 x.2) (N.map fun n => (n.1, n.2.1)) st [] s.memory out own m' ∧
        match out with
        | .ret (ws, st') => ws.length = N.length ∧ ∃ u, (xMapR F t (some f) st).run s.memory = (.ret (u, st'), m') ∧ u.eq = t.eq ∧
          u.Lists m'.nodes (mapResults N ws)
        | .panic => (xMapR F t (some f) st).run s.memory = (.panic, m')
        | .stuck => (xMapR F t (some f) st).run s.memory = (.stuck, m') := by
  obtain ⟨v, ⟨T, h1, h2⟩, hv⟩ := known_good (tableLib_ok hF) h ht
  have h1' := h1.mono (hv s .refl)
  have he : T.eq = some fun x y => decide (x = y) := by rw [h1.2, hd]; rfl
  refine ⟨T.entriesOf, T.mapNodes, h2.holds'.mapNodes h2 he, ⟨T, h1', h2, (Table.mapNodes_ok T h2 _ he).1⟩, fun st => ?_⟩
  have hh : hide [] s.memory.nodes = s.mem := by
    funext n
    simp only [hide, List.not_mem_nil, if_false]
    rfl
  obtain ⟨out, own, m', r, g1, g2, g3⟩ := run_xMapR hF h2 (H := []) (own := []) (m := s.memory) (t := t) (s := st) (f := f)
    (fun p d x => (hf p d x).tame) (fun _ h => nomatch h) (by rw [hh]; exact h1') (Or.inr hd)
  refine ⟨out, own, m', g2, ?_⟩
  cases out with
  | panic => cases g3; exact g1
  | stuck => cases g3; exact g1
  | ret y =>
    obtain ⟨ws, st'⟩ := y
    obtain ⟨p, rfl, g4⟩ := g3
    have hl := g2.length rfl
    simp only [List.length_map] at hl
    refine ⟨hl, ⟨p, t.eq⟩, g1, rfl, (T.map (some fun _ _ => popD) ws).1, g4.mono hide_le, .map _ _ _ h2, ?_⟩
    rw [Table.map_popD h2 he (by simp) hl]

/-- a nil mapper -/
theorem C57_map_nil (t : Obj D) (st : τ) (m : Mem α D) :
    (xMapR F t (none : Option (Prefix α → D → τ → Prog α D (D × τ))) st).run m = (.ret (t, st), m) := rfl

end

namespace Sample

/-- a mapper that meddles, as `meddle`, and adds 1 -/
def mapMeddle (p : Prefix (BitVec 32)) (d : Nat) (acc : List (Nat × Nat)) : Prog (BitVec 32) Nat (Nat × List (Nat × Nat)) :=
  meddle p d acc >>= fun x => .ret (d + 1, x.1)
theorem mapMeddle_uses (p : Prefix (BitVec 32)) (d : Nat) (acc : List (Nat × Nat)) : TUses 67 (mapMeddle p d acc) :=
  (meddle_uses p d acc).bind fun _ => .ret _
example := C57_map (by decide) s4_reach x3_known rfl mapMeddle mapMeddle_uses
example : ∃ u, ((xMapR 67 x3 (some mapMeddle) []).run s4.memory).1 = .ret (u, [(0, 3), (7, 2), (9, 1)]) := ⟨_, rfl⟩

end Sample
end Addrs
