import Verif.Proofs.SyncInterrupt
import Verif.Props.Sync
/-!
# C58: what interrupted reads do to `synchronize`, exactly

`interruptsFrom 0 r.script` are the byte counts after which the reader's reads are interrupted; `Visits` (Spec/Interrupts.lean)
says what a synchronizer comes across that, on an interruption, forgets the part of the marker it has already seen.
-/
namespace Ccsds
open Spec

theorem visits_unique {m s : List Bool} {skip a : Nat} {ints : List Nat} {ps qs : List (Option Nat)} (h : Visits m s skip ints a ps)
    (k : Visits m s skip ints a qs) : ps = qs := by
  induction h generalizing qs with
  | none h =>
    cases k with
    | none => rfl
    | marker k _ _ => exact absurd k.2.1 (h _ k.1)
  | @marker ints start i ps h h2 h3 ih =>
    generalize hints : ints = is at k
    cases k with
    | none k => exact absurd h.2.1 (k _ h.1)
    | marker k k2 k3 =>
      obtain rfl := Sync.firstAt_unique h k
      subst hints
      rw [ih k3]
    | @interrupted n ints' _ x _ k k2 k3 =>
      exfalso
      subst hints
      have := h2 n List.mem_cons_self
      have hx : x ≤ i := by
        apply Nat.le_of_not_lt
        intro hlt
        exact k.2.2 i h.1 hlt (Sync.agrees_of_occurs h.2.1)
      omega
  | @interrupted n ints start x ps h h2 h3 ih =>
    generalize hints : n :: ints = is at k
    cases k with
    | none k => simp at hints
    | @marker _ _ i _ k k2 k3 =>
      exfalso
      subst hints
      have := k2 n List.mem_cons_self
      have hx : x ≤ i := by
        apply Nat.le_of_not_lt
        intro hlt
        exact h.2.2 i k.1 hlt (Sync.agrees_of_occurs k.2.1)
      omega
    | @interrupted n' ints' _ x' _ k k2 k3 =>
      simp only [List.cons.injEq] at hints
      obtain ⟨rfl, rfl⟩ := hints
      have : x = x' := by
        rcases Nat.lt_trichotomy x x' with hlt | hlt | hlt
        · exact absurd h.2.1 (k.2.2 x h.1 hlt)
        · exact hlt
        · exact absurd k.2.1 (h.2.2 x' k.1 hlt)
      subst this
      rw [ih k3]

theorem visitsOK_get {S : List U8} {n len prev : Nat} {ps : List (Option Nat)} {its : List (Except Error Block)} (h : Sync.VisitsOK S n len prev ps its) :
    its.length = ps.length ∧ (∀ k : Nat, ps[k]? = some none → its[k]? = some (.error (.io .interrupted))) ∧
      ∀ k i : Nat, ps[k]? = some (some i) → ∃ (prev' : Nat) (it : Except Error Block), its[k]? = some it ∧ Sync.ItemOK S n len prev' i it := by
  induction ps generalizing prev its with
  | nil => cases its with | nil => simp | cons => exact h.elim
  | cons p ps ih =>
    cases its with
    | nil => cases p <;> exact h.elim
    | cons i its =>
      have key : ∃ prev', Sync.VisitsOK S n len prev' ps its := by
        cases p with
        | none => exact ⟨_, h.2⟩
        | some p => exact ⟨_, h.2⟩
      obtain ⟨prev', h'⟩ := key
      obtain ⟨a, b, c⟩ := ih h'
      refine ⟨by simp [a], ?_, ?_⟩
      · intro k hk
        cases k with
        | zero => simp only [List.getElem?_cons_zero, Option.some.injEq] at hk; subst hk; simp [h.1]
        | succ k => simpa using b k (by simpa using hk)
      · intro k j hk
        cases k with
        | zero => simp only [List.getElem?_cons_zero, Option.some.injEq] at hk; subst hk; exact ⟨_, i, by simp, h.1⟩
        | succ k => simpa using c k j (by simpa using hk)

theorem itemOK_not_interrupted {S : List U8} {n len prev i : Nat} {it : Except Error Block} (h : Sync.ItemOK S n len prev i it) :
    it ≠ .error (.io .interrupted) := by
  rintro rfl
  unfold Sync.ItemOK at h
  split at h
  · obtain ⟨d, _, _, e⟩ := h; cases e
  · split at h
    · cases h
    · simp at h

theorem itemOK_unique {S : List U8} {n len prev i : Nat} {it it' : Except Error Block} (a : Sync.ItemOK S n len prev i it) (b : Sync.ItemOK S n len prev i it') :
    it = it' := by
  unfold Sync.ItemOK at a b
  split at a
  · rename_i hc
    rw [if_pos hc] at b
    obtain ⟨d, _, e1, rfl⟩ := a
    obtain ⟨d', _, e1', rfl⟩ := b
    rw [← e1'] at e1
    rw [bits_inj e1]
  · rename_i hc
    rw [if_neg hc] at b
    split at a
    · rename_i h0
      rw [if_pos h0] at b
      rw [a, b]
    · rename_i h0
      rw [if_neg h0] at b
      rw [a, b]

/-- C58, exactly, for every reader whose reads succeed or are interrupted, every stream, marker and block length: the iterator
ends, and its items are, in order, an `Err(Interrupted)` for every interruption that `Visits` counts as noticed and one item for
every marker it finds, which is the block of the bits that follow (`Ok` if there are `len` bytes of them). -/
theorem C58_exact (r : Reader) (S asm : List U8) (len : Nat) (hr : r.Delivers S) (hasm : asm ≠ []) :
    ∃ (items : List (Except Error Block)) (s' : Sync.Iter) (ps : List (Option Nat)),
      Collects Sync.next (Sync.iter r asm len) items (some s') ∧
      Visits (bits asm) (bits S) (8 * len) (interruptsFrom 0 r.script) 0 ps ∧ items.length = ps.length ∧
      (∀ k : Nat, items[k]? = some (.error (.io .interrupted)) ↔ ps[k]? = some none) ∧
      (∀ k p : Nat, ps[k]? = some (some p) → p + 8 * asm.length + 8 * len ≤ 8 * S.length →
        ∃ b, items[k]? = some (.ok b) ∧ b.data.length = len ∧ bits b.data = ((bits S).drop (p + 8 * asm.length)).take (8 * len) ∧
          b.loc.offset = (p + 8 * asm.length) / 8 + 1 ∧ b.loc.bit.toNat = (8 - (p + 8 * asm.length) % 8) % 8) := by
  obtain ⟨items, s', ps, h1, h2, h3⟩ := Sync.irun_iter r S asm hasm len hr
  obtain ⟨a, b, c⟩ := visitsOK_get h3
  refine ⟨items, s', ps, h1, h2, a, ?_, ?_⟩
  · intro k
    constructor
    · intro hk
      have hlt : k < ps.length := by have := (List.getElem?_eq_some_iff.1 hk).1; omega
      cases hp : ps[k]? with
      | none => simp at hp; omega
      | some o =>
        cases o with
        | none => rfl
        | some i =>
          obtain ⟨prev', it, e1, e2⟩ := c k i hp
          rw [hk] at e1
          simp only [Option.some.injEq] at e1
          exact absurd e1.symm (itemOK_not_interrupted e2)
    · exact b k
  · intro k p hk hfull
    obtain ⟨prev', it, e1, e2⟩ := c k p hk
    unfold Sync.ItemOK at e2
    rw [if_pos hfull] at e2
    obtain ⟨data, d1, d2, rfl⟩ := e2
    refine ⟨_, e1, d1, d2, ?_, ?_⟩
    · simp only; omega
    · simp only [BitVec.toNat_ofNat]; omega

/-- C58: what is come across is a function of the bits and of the places of the interruptions. -/
theorem C58_visits_unique (m s : List Bool) (skip start : Nat) (ints : List Nat) (ps qs : List (Option Nat)) (h : Visits m s skip ints start ps)
    (k : Visits m s skip ints start qs) : ps = qs := visits_unique h k

/-- Items up to the first noticed interruption are those of the uninterrupted stream. -/
theorem visits_until {S : List U8} {m : List Bool} {n len skip start prev : Nat} {ints : List Nat} {ps : List (Option Nat)} {qs : List Nat}
    {its its' : List (Except Error Block)} (h : Visits m (bits S) skip ints start ps) (hok : Sync.VisitsOK S n len prev ps its)
    (k : Markers m (bits S) skip start qs) (kok : Sync.ItemsOK S n len prev qs its') :
    (.error (.io .interrupted) ∉ its → its = its') ∧
    ∀ before after, its = before ++ .error (.io .interrupted) :: after → .error (.io .interrupted) ∉ before → before <+: its' := by
  induction h generalizing prev qs its its' with
  | none h =>
    cases its with
    | cons => exact hok.elim
    | nil =>
      cases k with
      | cons k _ => exact absurd k.2.1 (h _ k.1)
      | none =>
        cases its' with
        | cons => exact kok.elim
        | nil => simp
  | marker h _ _ ih =>
    cases its with
    | nil => exact hok.elim
    | cons it its =>
      cases k with
      | none k => exact absurd h.2.1 (k _ h.1)
      | cons k k' =>
        obtain rfl := Sync.firstAt_unique h k
        cases its' with
        | nil => exact kok.elim
        | cons it' its' =>
          obtain rfl := itemOK_unique hok.1 kok.1
          obtain ⟨a, b⟩ := ih hok.2 k' kok.2
          refine ⟨?_, ?_⟩
          · intro hn
            rw [a (fun hm => hn (List.mem_cons_of_mem _ hm))]
          · intro before after e hn
            cases before with
            | nil => exact List.nil_prefix
            | cons x before =>
              simp only [List.cons_append, List.cons.injEq] at e
              obtain ⟨rfl, e⟩ := e
              exact List.cons_prefix_cons.2 ⟨rfl, b before after e (fun hm => hn (List.mem_cons_of_mem _ hm))⟩
  | interrupted h _ _ ih =>
    cases its with
    | nil => exact hok.elim
    | cons it its =>
      obtain rfl := hok.1
      refine ⟨fun hn => absurd List.mem_cons_self hn, ?_⟩
      intro before after e hn
      cases before with
      | nil => exact List.nil_prefix
      | cons x before =>
        simp only [List.cons_append, List.cons.injEq] at e
        obtain ⟨rfl, e⟩ := e
        exact absurd List.mem_cons_self hn

/-- C58: nothing is lost without notice. If no item is `Err(Interrupted)`, the items are those of the same stream without
interruptions; otherwise the items before the first one are a beginning of these. -/
theorem C58_no_silent_loss (r r' : Reader) (S asm : List U8) (len : Nat) (hr : r.Delivers S) (hr' : Smooth r' S) (hasm : asm ≠ [])
    (items items' : List (Except Error Block)) (e e' : Option Sync.Iter)
    (h : Collects Sync.next (Sync.iter r asm len) items e) (h' : Collects Sync.next (Sync.iter r' asm len) items' e') :
    (.error (.io .interrupted) ∉ items → items = items') ∧
    ∀ before after, items = before ++ .error (.io .interrupted) :: after → .error (.io .interrupted) ∉ before → before <+: items' := by
  obtain ⟨its, s, ps, h1, h2, h3⟩ := Sync.irun_iter r S asm hasm len hr
  obtain ⟨its', s', qs, k1, k2, k3⟩ := Sync.run_iter r' S asm hasm len hr'
  obtain ⟨rfl, rfl⟩ := h.unique h1
  obtain ⟨rfl, rfl⟩ := h'.unique k1
  exact visits_until h2 h3 k2 k3

theorem visits_of_markers {m s : List Bool} {skip start : Nat} {qs : List Nat} (k : Markers m s skip start qs) :
    (∀ q ∈ qs, start ≤ q) ∧ ∀ ints : List Nat, (∀ n ∈ ints, ∃ q ∈ qs, q + m.length ≤ 8 * n ∧ 8 * n < q + m.length + skip) →
      Visits m s skip ints start (qs.map some) := by
  induction k with
  | none h =>
    refine ⟨by simp, ?_⟩
    intro ints hi
    cases ints with
    | nil => exact .none h
    | cons n ints =>
      obtain ⟨q, hq, _⟩ := hi n List.mem_cons_self
      simp at hq
  | cons h _ ih =>
    rename_i i ps _
    obtain ⟨ih1, ih2⟩ := ih
    have hge : ∀ q ∈ ps, i + m.length + skip ≤ q := ih1
    refine ⟨?_, ?_⟩
    · intro q hq
      rcases List.mem_cons.1 hq with rfl | hq
      · exact h.1
      · have := hge q hq; have := h.1; omega
    · intro ints hi
      refine .marker h ?_ (ih2 _ ?_)
      · intro n hn
        obtain ⟨q, hq, h1, h2⟩ := hi n hn
        rcases List.mem_cons.1 hq with rfl | hq
        · exact h1
        · have := hge q hq; omega
      · intro n hn
        rw [List.mem_filter] at hn
        obtain ⟨q, hq, h1, h2⟩ := hi n hn.1
        rcases List.mem_cons.1 hq with rfl | hq
        · have := hn.2; simp only [decide_eq_true_eq] at this; omega
        · exact ⟨q, hq, h1, h2⟩

/-- C58: interruptions inside blocks cost nothing. If every interruption comes while a block (of the uninterrupted stream) is
being read, that is before its last byte and not before its first bit, the items are those of the uninterrupted stream. -/
theorem C58_inside_blocks (r r' : Reader) (S asm : List U8) (len : Nat) (hr : r.Delivers S) (hr' : Smooth r' S) (hasm : asm ≠ [])
    (qs : List Nat) (hqs : Markers (bits asm) (bits S) (8 * len) 0 qs)
    (hin : ∀ n ∈ interruptsFrom 0 r.script, ∃ q ∈ qs, q + 8 * asm.length ≤ 8 * n ∧ 8 * n < q + 8 * asm.length + 8 * len) :
    ∃ items s s', Collects Sync.next (Sync.iter r asm len) items (some s) ∧ Collects Sync.next (Sync.iter r' asm len) items (some s') := by
  obtain ⟨its, s, ps, h1, h2, h3⟩ := Sync.irun_iter r S asm hasm len hr
  obtain ⟨its', s', qs', k1, k2, k3⟩ := Sync.run_iter r' S asm hasm len hr'
  obtain rfl := Sync.markers_unique hqs k2
  have hv := (visits_of_markers hqs).2 (interruptsFrom 0 r.script) (by simpa using hin)
  obtain rfl := visits_unique h2 hv
  have hno : .error (.io .interrupted) ∉ its := by
    intro hm
    obtain ⟨k, hk⟩ := List.getElem?_of_mem hm
    obtain ⟨a, b, c⟩ := visitsOK_get h3
    have hlt : k < its.length := (List.getElem?_eq_some_iff.1 hk).1
    have hq : k < qs.length := by simpa [a] using hlt
    obtain ⟨prev', it, e1, e2⟩ := c k qs[k] (by simp [hq])
    rw [hk] at e1
    simp only [Option.some.injEq] at e1
    exact absurd e1.symm (itemOK_not_interrupted e2)
  obtain rfl := (visits_until h2 h3 k2 k3).1 hno
  exact ⟨its, s, s', h1, k1⟩

/-- Non-vacuity: a reader interrupted inside the marker (after byte 1) and inside a block (after byte 5). -/
example : Reader.Delivers ⟨[.data [0x55#8], .err .interrupted, .data [0xaa#8, 7#8, 0x55#8, 0xaa#8], .err .interrupted, .data [9#8]], .eof⟩
    [0x55#8, 0xaa#8, 7#8, 0x55#8, 0xaa#8, 9#8] := by
  refine ⟨?_, rfl, rfl⟩
  intro e he
  simp only [List.mem_cons, List.not_mem_nil, or_false] at he
  rcases he with rfl | rfl | rfl | rfl | rfl
  · exact Or.inl ⟨_, by simp, rfl⟩
  · exact Or.inr rfl
  · exact Or.inl ⟨_, by simp, rfl⟩
  · exact Or.inr rfl
  · exact Or.inl ⟨_, by simp, rfl⟩

example : interruptsFrom 0 [.data [0x55#8], .err .interrupted, .data [0xaa#8, 7#8, 0x55#8, 0xaa#8], .err .interrupted, .data [9#8]] = [1, 5] := rfl

/-- The hypothesis of `C58_inside_blocks` for the second interruption alone: the markers are at bits 0 and 24, the second block
is byte 5. -/
example : Markers (bits [0x55#8, 0xaa#8]) (bits [0x55#8, 0xaa#8, 7#8, 0x55#8, 0xaa#8, 9#8]) (8 * 1) 0 [0, 24] ∧
    ∀ n ∈ interruptsFrom 0 [.data [0x55#8, 0xaa#8, 7#8, 0x55#8, 0xaa#8], .err .interrupted, .data [9#8]],
      ∃ q ∈ [0, 24], q + 8 * [0x55#8, 0xaa#8].length ≤ 8 * n ∧ 8 * n < q + 8 * [0x55#8, 0xaa#8].length + 8 * 1 := by
  constructor
  · refine .cons ⟨by omega, ⟨bits [7#8, 0x55#8, 0xaa#8, 9#8], rfl⟩, by omega⟩ (.cons ⟨by simp, ⟨bits [9#8], rfl⟩, by simp; omega⟩ (.none ?_))
    exact Sync.no_occurs_of_short (Sync.bits_ne_nil (by simp)) (by simp)
  · intro n hn
    have : n = 5 := by simpa [interruptsFrom] using hn
    subst this
    exact ⟨24, by simp, by simp, by simp⟩

end Ccsds
