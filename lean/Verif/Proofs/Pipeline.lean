import Verif.Model.Pipeline
import Verif.Props.Sync
import Verif.Props.Frame
import Verif.Props.Pn
/-! Lemmas about the pipeline: the lazy chain equals the composition of its stages. -/
namespace Ccsds.Pipeline

/-- Decoding one block does not look at the blocks behind it. -/
theorem next_single (b : Build) (m : HMap U16 U32) (c : Block) (rest : List Block) :
    FrameDecoder.next b ⟨m, c :: rest⟩ = match FrameDecoder.next b ⟨m, [c]⟩ with
      | .ret (o, t) => .ret (o, { t with cadus := rest })
      | .panic => .panic := by
  simp only [FrameDecoder.next]
  cases VCDUHeader.decode c.data with
  | none => rfl
  | some h =>
    simp only
    cases (if h.vcid ≠ VCDUHeader.FILL then m.get? h.vcid else none) with
    | none => rfl
    | some last =>
      simp only
      cases missingFrames b h.counter last with
      | ret x => rfl
      | panic => rfl

theorem oks_error {e : Error} {l : List (Except Error Block)} : oks (.error e :: l) = oks l := rfl
theorem oks_ok {x : Block} {l : List (Except Error Block)} : oks (.ok x :: l) = x :: oks l := rfl

/-- The blocks pulled are the `Ok` items. -/
theorem pulls_of_collects {s sf : Sync.Iter} {items : List (Except Error Block)} (h : Collects Sync.next s items (some sf)) :
    (oks items = [] ∧ Pulls s none sf) ∨
    (∃ x y items', oks items = x :: oks items' ∧ Pulls s (some x) y ∧ Collects Sync.next y items' (some sf)) := by
  generalize hsf : some sf = e at h
  induction h with
  | done h => injection hsf with hsf; subst hsf; exact Or.inl ⟨rfl, .done h⟩
  | panicked h => simp at hsf
  | step h hc ih =>
    rename_i s s' a as e
    cases a with
    | ok x => subst hsf; exact Or.inr ⟨x, s', as, rfl, .ok h, hc⟩
    | error er =>
      rcases ih hsf with ⟨h1, h2⟩ | ⟨x, y, items', h1, h2, h3⟩
      · exact Or.inl ⟨by rw [oks_error, h1], .skip h h2⟩
      · exact Or.inr ⟨x, y, items', by rw [oks_error, h1], .skip h h2, h3⟩

theorem yields_of_collects (b : Build) (derand : Bool) {t : FrameDecoder.State} {frames : List Frame} {e : Option FrameDecoder.State}
    (h : Collects (FrameDecoder.next b) t frames e) : ∀ (s sf : Sync.Iter) (items : List (Except Error Block)),
    Collects Sync.next s items (some sf) → t.cadus = (oks items).map (prep derand) →
    ∃ e', Yields b derand ⟨s, t.counters⟩ frames e' ∧ e'.isSome = e.isSome := by
  induction h with
  | done h =>
    rename_i t t'
    intro s sf items hc ht
    rcases pulls_of_collects hc with ⟨h1, h2⟩ | ⟨x, y, items', h1, h2, h3⟩
    · exact ⟨_, .done h2, rfl⟩
    · rw [h1, List.map_cons] at ht
      obtain ⟨m, cs⟩ := t
      simp only at ht
      subst ht
      rw [next_single] at h
      cases hn : FrameDecoder.next b ⟨m, [prep derand x]⟩ with
      | panic => rw [hn] at h; simp at h
      | ret r =>
        obtain ⟨o, t2⟩ := r
        rw [hn] at h
        simp only [Outcome.ret.injEq, Prod.mk.injEq] at h
        obtain ⟨rfl, _⟩ := h
        exact ⟨_, .stop h2 hn, rfl⟩
  | panicked h =>
    rename_i t
    intro s sf items hc ht
    rcases pulls_of_collects hc with ⟨h1, h2⟩ | ⟨x, y, items', h1, h2, h3⟩
    · rw [h1] at ht
      obtain ⟨m, cs⟩ := t
      simp only [List.map_nil] at ht
      subst ht
      simp [FrameDecoder.next] at h
    · rw [h1, List.map_cons] at ht
      obtain ⟨m, cs⟩ := t
      simp only at ht
      subst ht
      rw [next_single] at h
      cases hn : FrameDecoder.next b ⟨m, [prep derand x]⟩ with
      | panic => exact ⟨_, .panicked h2 hn, rfl⟩
      | ret r => obtain ⟨o, t2⟩ := r; rw [hn] at h; simp at h
  | step h _ ih =>
    rename_i t t' f fs e _
    intro s sf items hc ht
    rcases pulls_of_collects hc with ⟨h1, h2⟩ | ⟨x, y, items', h1, h2, h3⟩
    · rw [h1] at ht
      obtain ⟨m, cs⟩ := t
      simp only [List.map_nil] at ht
      subst ht
      simp [FrameDecoder.next] at h
    · rw [h1, List.map_cons] at ht
      obtain ⟨m, cs⟩ := t
      simp only at ht
      subst ht
      rw [next_single] at h
      cases hn : FrameDecoder.next b ⟨m, [prep derand x]⟩ with
      | panic => rw [hn] at h; simp at h
      | ret r =>
        obtain ⟨o, t2⟩ := r
        rw [hn] at h
        simp only [Outcome.ret.injEq, Prod.mk.injEq] at h
        obtain ⟨rfl, rfl⟩ := h
        obtain ⟨e', hy, he⟩ := ih y sf items' h3 rfl
        exact ⟨e', .frame h2 hn hy, he⟩

theorem pulls_unique {s y z : Sync.Iter} {o p : Option Block} (h : Pulls s o y) (k : Pulls s p z) : o = p ∧ y = z := by
  induction h generalizing p z with
  | done h =>
    cases k with
    | done k => simp_all
    | ok k => simp_all
    | skip k _ => simp_all
  | ok h =>
    cases k with
    | done k => simp_all
    | ok k => simp_all
    | skip k _ => simp_all
  | skip h _ ih =>
    cases k with
    | done k => simp_all
    | ok k => simp_all
    | skip k k' =>
      rw [h] at k
      simp only [Outcome.ret.injEq, Prod.mk.injEq] at k
      obtain ⟨_, rfl⟩ := k
      exact ih k'

/-- The output is determined by the input. -/
theorem yields_unique {b : Build} {derand : Bool} {s : State} {as bs : List Frame} {e f : Option State}
    (h : Yields b derand s as e) (k : Yields b derand s bs f) : as = bs ∧ e = f := by
  induction h generalizing bs f with
  | done h =>
    cases k with
    | done k => have := pulls_unique h k; simp_all
    | stop k _ => have := pulls_unique h k; simp_all
    | panicked k _ => have := pulls_unique h k; simp_all
    | frame k _ _ => have := pulls_unique h k; simp_all
  | stop h h2 =>
    cases k with
    | done k => have := pulls_unique h k; simp_all
    | stop k k2 => obtain ⟨a, rfl⟩ := pulls_unique h k; simp only [Option.some.injEq] at a; subst a; simp_all
    | panicked k k2 => obtain ⟨a, rfl⟩ := pulls_unique h k; simp only [Option.some.injEq] at a; subst a; simp_all
    | frame k k2 _ => obtain ⟨a, rfl⟩ := pulls_unique h k; simp only [Option.some.injEq] at a; subst a; simp_all
  | panicked h h2 =>
    cases k with
    | done k => have := pulls_unique h k; simp_all
    | stop k k2 => obtain ⟨a, rfl⟩ := pulls_unique h k; simp only [Option.some.injEq] at a; subst a; simp_all
    | panicked k k2 => simp
    | frame k k2 _ => obtain ⟨a, rfl⟩ := pulls_unique h k; simp only [Option.some.injEq] at a; subst a; simp_all
  | frame h h2 _ ih =>
    cases k with
    | done k => have := pulls_unique h k; simp_all
    | stop k k2 => obtain ⟨a, rfl⟩ := pulls_unique h k; simp only [Option.some.injEq] at a; subst a; simp_all
    | panicked k k2 => obtain ⟨a, rfl⟩ := pulls_unique h k; simp only [Option.some.injEq] at a; subst a; simp_all
    | frame k k2 k3 =>
      obtain ⟨a, rfl⟩ := pulls_unique h k
      simp only [Option.some.injEq] at a
      subst a
      rw [h2] at k2
      simp only [Outcome.ret.injEq, Prod.mk.injEq, Option.some.injEq] at k2
      obtain ⟨rfl, rfl⟩ := k2
      obtain ⟨rfl, rfl⟩ := ih k3
      exact ⟨rfl, rfl⟩

theorem prep_data (d : Bool) (x : Block) : (prep d x).data = if d then Pn.derandomize x.data else x.data := by
  unfold prep; split <;> rfl

end Ccsds.Pipeline
