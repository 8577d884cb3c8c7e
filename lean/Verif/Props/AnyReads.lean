import Verif.Proofs.SyncAnyReads
import Verif.Props.ReadErrors
/-!
# C88: exactly what `synchronize` returns on a reader that does anything
-/
namespace Ccsds
open Spec

theorem heard_calls (asm : List U8) (hasm : asm ≠ []) (len : Nat) (T : IoKind) (s t : Sync.Iter) (rs : List (Option (Except Error Block)))
    (h : Calls Sync.next s rs t) : ∀ (V : List U8) (base : Nat) (D : List (Nat × IoKind)) (pos p : Nat),
      Sync.XAt asm len T V base D s.scanner pos p → s.last ≤ base + pos + 1 → Heard asm len T V base D (8 * pos + p) s.last rs := by
  induction h with
  | nil => intros; exact .nil
  | @cons s s' t a as hn _ ih =>
    intro V base D pos p hx hl
    obtain ⟨res, s1, V', base', D', pos', p', last', g1, g2, g3, g4⟩ := Sync.xitem asm hasm len T V base D s.scanner pos p s.last hx hl
    have : Outcome.ret (a, s') = Outcome.ret (res, ⟨s1, last'⟩) := by rw [← hn, ← g1]
    simp only [Outcome.ret.injEq, Prod.mk.injEq] at this
    obtain ⟨rfl, rfl⟩ := this
    exact g4 _ (ih V' base' D' pos' p' g2 g3)

/-- C88, exactly: whatever the reads do, the results of any number of successive calls (calls after the end of the file was reported included) are those that
`Heard` describes: from the start of what the reader delivers, nothing found yet. -/
theorem C88_exact (r : Reader) (asm : List U8) (len : Nat) (hasm : asm ≠ []) (rs : List (Option (Except Error Block))) (t : Sync.Iter)
    (h : Calls Sync.next (Sync.iter r asm len) rs t) :
    Heard asm len (everAfter r.tail) (evBytes r.script) 0 (upsetsFrom 0 r.script) 0 0 rs :=
  heard_calls asm hasm len _ _ t rs h _ 0 _ 0 0 (Sync.xstart r asm len) (Nat.zero_le _)

/-- C88: any number of calls return; none panics. -/
theorem C88_returns (r : Reader) (asm : List U8) (len : Nat) (hasm : asm ≠ []) (n : Nat) :
    ∃ rs t, rs.length = n ∧ Calls Sync.next (Sync.iter r asm len) rs t := by
  have key : ∀ (n : Nat) (s : Sync.Iter) (V : List U8) (base : Nat) (D : List (Nat × IoKind)) (pos p : Nat),
      Sync.XAt asm len (everAfter r.tail) V base D s.scanner pos p → s.last ≤ base + pos + 1 → ∃ rs t, rs.length = n ∧ Calls Sync.next s rs t := by
    intro n
    induction n with
    | zero => intro s _ _ _ _ _ _ _; exact ⟨[], s, rfl, .nil⟩
    | succ n ih =>
      intro s V base D pos p hx hl
      obtain ⟨res, s1, V', base', D', pos', p', last', g1, g2, g3, _⟩ := Sync.xitem asm hasm len _ V base D s.scanner pos p s.last hx hl
      obtain ⟨rs, t, e1, e2⟩ := ih ⟨s1, last'⟩ V' base' D' pos' p' g2 g3
      exact ⟨res :: rs, t, by simp [e1], .cons g1 e2⟩
  exact key n _ _ 0 _ 0 0 (Sync.xstart r asm len) (Nat.zero_le _)

/-- A complete occurrence is a candidate, whatever is known. -/
theorem candidate_le {m s : List Bool} {known start x i : Nat} (hc : FirstCandidate m s known start x) (hf : FirstAt m s start i) : x ≤ i := by
  refine Nat.le_of_not_lt fun h => hc.2.2 i hf.1 h ?_
  exact Sync.agrees_of_occurs hf.2.1

theorem candidate_unique {m s : List Bool} {known start x y : Nat} (h : FirstCandidate m s known start x) (k : FirstCandidate m s known start y) : x = y := by
  rcases Nat.lt_trichotomy x y with hl | he | hl
  · exact absurd h.2.1 (k.2.2 x h.1 hl)
  · exact he
  · exact absurd k.2.1 (h.2.2 y k.1 hl)

/-- A candidate that is not complete when something goes wrong excludes a marker that is complete by then. -/
theorem candidate_excludes {m s : List Bool} {n start x i : Nat} (hc : FirstCandidate m s (8 * n) start x) (hx : 8 * n < x + m.length)
    (hf : FirstAt m s start i) (hi : i + m.length ≤ 8 * n) : False := by
  have := candidate_le hc hf
  omega

/-- C88: the description leaves nothing open: two lists of results of the same length that fit it are equal. -/
theorem C88_determined {m : List U8} {len : Nat} {T : IoKind} {V : List U8} {base : Nat} {D : List (Nat × IoKind)} {start prev : Nat}
    {rs rs' : List (Option (Except Error Block))} (h : Heard m len T V base D start prev rs) (k : Heard m len T V base D start prev rs')
    (hl : rs.length = rs'.length) : rs = rs' := by
  induction h generalizing rs' with
  | nil => exact (List.length_eq_zero_iff.1 hl.symm).symm
  | block h1 h2 h3 h4 _ ih =>
    generalize hV : rs' = rr at k
    cases k with
    | nil => subst hV; simp at hl
    | block k1 k2 k3 k4 k5 =>
      subst hV
      obtain rfl := Sync.firstAt_unique h1 k1
      rw [ih k5 (by simpa using hl), bits_inj (h4.trans k4.symm)]
    | cut k1 k2 k3 k4 k5 k6 =>
      obtain rfl := Sync.firstAt_unique h1 k1
      rw [k3] at h3; simp only at h3; omega
    | failed k1 k2 k3 k4 =>
      obtain rfl := Sync.firstAt_unique h1 k1
      rw [k3] at h3; simp only at h3; omega
    | upset k1 k2 k3 k4 =>
      rw [k1] at h2
      exact (candidate_excludes k2 (by rw [bits_length]; exact k3) h1 (by rw [bits_length]; exact h2)).elim
  | cut h1 h2 h3 h4 h5 _ ih =>
    generalize hV : rs' = rr at k
    cases k with
    | nil => subst hV; simp at hl
    | block k1 k2 k3 k4 k5 =>
      obtain rfl := Sync.firstAt_unique h1 k1
      rw [h3] at k3; simp only at k3; omega
    | cut k1 k2 k3 k4 k5 k6 =>
      subst hV
      obtain rfl := Sync.firstAt_unique h1 k1
      have e := h3.symm.trans k3
      simp only [Prod.mk.injEq, and_true] at e
      subst e
      rw [ih k6 (by simpa using hl)]
    | failed k1 k2 k3 k4 k5 =>
      obtain rfl := Sync.firstAt_unique h1 k1
      have e := h3.symm.trans k3
      simp only [Prod.mk.injEq] at e
      exact absurd h5 (k5 e.2.symm)
    | upset k1 k2 k3 k4 =>
      rw [k1] at h2
      exact (candidate_excludes k2 (by rw [bits_length]; exact k3) h1 (by rw [bits_length]; exact h2)).elim
  | failed h1 h2 h3 h4 h5 h6 h7 _ ih =>
    generalize hV : rs' = rr at k
    cases k with
    | nil => subst hV; simp at hl
    | block k1 k2 k3 k4 k5 =>
      obtain rfl := Sync.firstAt_unique h1 k1
      rw [h3] at k3; simp only at k3; omega
    | cut k1 k2 k3 k4 k5 k6 =>
      obtain rfl := Sync.firstAt_unique h1 k1
      have e := h3.symm.trans k3
      simp only [Prod.mk.injEq] at e
      exact absurd k5 (h5 e.2)
    | failed k1 k2 k3 k4 k5 k6 k7 k8 =>
      subst hV
      obtain rfl := Sync.firstAt_unique h1 k1
      have e := h3.symm.trans k3
      simp only [Prod.mk.injEq] at e
      obtain ⟨rfl, rfl⟩ := e
      have e := List.append_inj_left (h6.symm.trans k6) (h7.trans k7.symm)
      subst e
      rw [ih k8 (by simpa using hl)]
    | upset k1 k2 k3 k4 =>
      rw [k1] at h2
      exact (candidate_excludes k2 (by rw [bits_length]; exact k3) h1 (by rw [bits_length]; exact h2)).elim
  | upset h1 h2 h3 _ ih =>
    generalize hV : rs' = rr at k
    cases k with
    | nil => subst hV; simp at hl
    | block k1 k2 =>
      rw [h1] at k2
      exact (candidate_excludes h2 (by rw [bits_length]; exact h3) k1 (by rw [bits_length]; exact k2)).elim
    | cut k1 k2 =>
      rw [h1] at k2
      exact (candidate_excludes h2 (by rw [bits_length]; exact h3) k1 (by rw [bits_length]; exact k2)).elim
    | failed k1 k2 =>
      rw [h1] at k2
      exact (candidate_excludes h2 (by rw [bits_length]; exact h3) k1 (by rw [bits_length]; exact k2)).elim
    | upset k1 k2 k3 k4 =>
      subst hV
      have e := h1.symm.trans k1
      simp only [Prod.mk.injEq] at e
      obtain ⟨rfl, rfl⟩ := e
      obtain rfl := candidate_unique h2 k2
      rw [ih k4 (by simpa using hl)]

/-- Items taken are results of calls. -/
theorem calls_of_takes {S α : Type} {next : S → Outcome (Option α × S)} {s t : S} {items : List α} (h : Takes next s items t) : Calls next s (items.map some) t := by
  induction h with
  | nil => exact .nil
  | cons hn _ ih => exact .cons hn ih

/-- The items of a run and the report of its end are results of calls. -/
theorem calls_of_collects {S α : Type} {next : S → Outcome (Option α × S)} {s t : S} {items : List α} (h : Collects next s items (some t)) :
    Calls next s (items.map some ++ [none]) t := by
  generalize he : some t = e at h
  induction h with
  | done hn => cases he; exact .cons hn .nil
  | panicked hn => cases he
  | step hn _ ih => exact .cons hn (ih he)

/-- C88, exactly, for a whole run: the items, and that nothing comes after them. -/
theorem C88_exact_run (r : Reader) (asm : List U8) (len : Nat) (hasm : asm ≠ []) (items : List (Except Error Block)) (t : Sync.Iter)
    (h : Collects Sync.next (Sync.iter r asm len) items (some t)) :
    Heard asm len (everAfter r.tail) (evBytes r.script) 0 (upsetsFrom 0 r.script) 0 0 (items.map some ++ [none]) :=
  C88_exact r asm len hasm _ t (calls_of_collects h)

/-- The witness of `C88_violated` as `Heard` describes it: the marker 0x55 at bit 1, whose block fails; then the byte `aa` in which the block started stands in front of
`80 12 34`, and in these bits the marker is found again at bit 1, though the reader never delivered these bytes in a row. -/
example : Heard [0x55#8] 2 .unexpectedEof [0x2a#8, 0xaa#8, 0x00#8, 0x80#8, 0x12#8, 0x34#8] 0 [(3, .other 5)] 0 0
    [some (.error (.io (.other 5))), some (.ok ⟨1, ⟨3, 7#8⟩, [0x00#8, 0x24#8]⟩)] := by
  obtain ⟨t, ht⟩ := c88_run
  exact C88_exact c88_reader [0x55#8] 2 (by simp) _ t (calls_of_takes ht)

/-- Calls after the end was reported: the marker 0x55 with one byte, then an end of file, then another. -/
def c88_again : Reader := ⟨[.data [0x55#8, 1#8], .data [], .data [0x55#8, 2#8]], .eof⟩

theorem c88_again_run : ∃ t, Calls Sync.next (Sync.iter c88_again [0x55#8] 1) [some (.ok ⟨0, ⟨2, 0#8⟩, [1#8]⟩), none, some (.ok ⟨2, ⟨4, 0#8⟩, [2#8]⟩)] t := by
  have h1 : Sync.next (Sync.iter c88_again [0x55#8] 1) = .ret (some (.ok ⟨0, ⟨2, 0#8⟩, [1#8]⟩),
      ⟨⟨⟨⟨[.data [], .data [0x55#8, 2#8]], .eof⟩, 2, []⟩, 1, Sync.patterns [0x55#8], Sync.masks [0x55#8], 0⟩, 2⟩) := by
    unfold Sync.next
    rw [Sync.scan]
    rfl
  have h2 : Sync.next ⟨⟨⟨⟨[.data [], .data [0x55#8, 2#8]], .eof⟩, 2, []⟩, 1, Sync.patterns [0x55#8], Sync.masks [0x55#8], 0⟩, 2⟩ =
      .ret (none, ⟨⟨⟨⟨[.data [0x55#8, 2#8]], .eof⟩, 2, []⟩, 1, Sync.patterns [0x55#8], Sync.masks [0x55#8], 0⟩, 2⟩) := by
    unfold Sync.next
    rw [Sync.scan]
    rfl
  refine ⟨⟨⟨⟨⟨[], .eof⟩, 4, []⟩, 1, Sync.patterns [0x55#8], Sync.masks [0x55#8], 0⟩, 4⟩, .cons h1 (.cons h2 (.cons ?_ .nil))⟩
  unfold Sync.next
  rw [Sync.scan]
  rfl

example : Heard [0x55#8] 1 .unexpectedEof [0x55#8, 1#8, 0x55#8, 2#8] 0 [(2, .unexpectedEof)] 0 0
    [some (.ok ⟨0, ⟨2, 0#8⟩, [1#8]⟩), none, some (.ok ⟨2, ⟨4, 0#8⟩, [2#8]⟩)] := by
  obtain ⟨t, ht⟩ := c88_again_run
  exact C88_exact c88_again [0x55#8] 1 (by simp) _ t ht

end Ccsds
