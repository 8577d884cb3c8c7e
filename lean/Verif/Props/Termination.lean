import Verif.Proofs.Terminate
import Verif.Props.Sync
import Verif.Props.Info
import Verif.Props.Diff
import Verif.Props.Filter
import Verif.Props.Merge
import Verif.Props.Pipeline
/-!
# C66: the tools end on every input
-/
namespace Ccsds
open Spec

/-! ## C30 for every input -/

/-- C30: `synchronize` ends on every reader that ends, whatever results (short reads, interruptions, errors, early ends of file) its `read` calls
give before, for every non-empty marker and every block length. -/
theorem C30_terminates_always (r : Reader) (asm : List U8) (len : Nat) (hasm : asm ≠ []) (ht : r.tail = .eof) :
    ∃ items s', Collects Sync.next (Sync.iter r asm len) items (some s') :=
  Sync.blocks_end asm hasm _ (Sync.iter_safe r asm len) ht

example : ∃ items s', Collects Sync.next (Sync.iter ⟨[.data [0x1a, 0xcf], .err (.other 5), .data [], .err .unexpectedEof, .data [0xfc, 0x1d, 7]], .eof⟩ Sync.ASM 3)
    items (some s') := C30_terminates_always _ _ _ (by decide) rfl

/-- C07: `decode_packets` ends (or panics, see C03) on every reader that ends, whatever errors it reports before. -/
theorem C07_ends (r : Reader) (ht : r.tail = .eof) : ∃ items e, Collects PacketDecoder.next (PacketDecoder.new r) items e := packets_end r ht 0

example : ∃ items e, Collects PacketDecoder.next (PacketDecoder.new ⟨[.data [0x1a, 0xcf], .err (.other 5), .data [], .err .unexpectedEof], .eof⟩) items e :=
  C07_ends _ rfl

/-! ## Reading with `map_while(Result::ok)` always ends -/

theorem readExactGo_none (t : Tail) (es : List Ev) : ∀ (n : Nat) (acc : List U8), 0 < n →
    (Reader.readExactGo t es n acc).1 = none → weight (Reader.readExactGo t es n acc).2.2 < weight es := by
  induction es with
  | nil => intro n acc hn h; cases n with
    | zero => omega
    | succ n => cases t <;> simp [Reader.readExactGo] at h
  | cons e es ih =>
    intro n acc hn h
    cases n with
    | zero => omega
    | succ n =>
      rw [weight_cons]
      cases e with
      | err k =>
        simp only [Reader.readExactGo] at h ⊢
        split at h
        · rw [if_pos (by assumption)]
          have := ih (n + 1) acc (by omega) h; omega
        · cases h
      | data c =>
        simp only [Reader.readExactGo] at h ⊢
        split at h
        · cases h
        · rw [if_neg (by assumption)]
          split at h
          · rw [if_pos (by assumption)]
            have := (readExactGo_weight t es (n + 1 - c.length) (acc ++ c)).1
            omega
          · rw [if_neg (by assumption)]
            simp only [weight_cons, Ev.bytes, List.length_drop]; omega

theorem read_ok_weight (r : Reader) (p : Packet) (r' : Reader) (h : Packet.read r = .ret (.ok p, r')) : weight r'.script < weight r.script := by
  unfold Packet.read at h
  have a1 := readExactGo_none r.tail r.script PrimaryHeader.LEN [] (by decide)
  have a2 : weight (r.readExact PrimaryHeader.LEN).2.2.script = weight (Reader.readExactGo r.tail r.script PrimaryHeader.LEN []).2.2 := rfl
  have a3 : (r.readExact PrimaryHeader.LEN).1 = (Reader.readExactGo r.tail r.script PrimaryHeader.LEN []).1 := rfl
  rw [← a2, ← a3] at a1
  clear a2 a3
  generalize r.readExact PrimaryHeader.LEN = x at h a1
  obtain ⟨e1, hdr, r1⟩ := x
  cases e1 with
  | some k => cases h
  | none =>
    have a1 := a1 rfl
    simp only at h a1
    split at h
    · cases h
    · rename_i ph _
      split at h
      · obtain ⟨b1, _, _⟩ := readExact_weight r1 (PrimaryHeader.LEN + (ph.lenMinus1.toNat + 1) - PrimaryHeader.LEN)
        generalize r1.readExact (PrimaryHeader.LEN + (ph.lenMinus1.toNat + 1) - PrimaryHeader.LEN) = y at h b1
        obtain ⟨e2, body, r2⟩ := y
        cases e2 with
        | some k => cases h
        | none => cases h; simp only at b1 ⊢; omega
      · cases h

theorem mapWhile_end (r : Reader) (o : Nat) : ∃ ps e, Collects (Filter.mapWhileOk PacketDecoder.next) ⟨r, o⟩ ps e := by
  generalize hn : weight r.script = n
  induction n using Nat.strongRecOn generalizing r o with
  | ind n ih =>
    cases hr : Packet.read r with
    | panic => exact ⟨[], none, .panicked (by simp only [Filter.mapWhileOk, PacketDecoder.next, hr]; rfl)⟩
    | ret x =>
      obtain ⟨res, r'⟩ := x
      cases res with
      | ok p =>
        have hw := read_ok_weight r p r' hr
        obtain ⟨ps, e, hc⟩ := ih _ (by omega) r' (o + (PrimaryHeader.LEN + (p.header.lenMinus1.toNat + 1))) rfl
        exact ⟨_, e, .step (by simp only [Filter.mapWhileOk, PacketDecoder.next, hr]; rfl) hc⟩
      | error k =>
        refine ⟨[], some ⟨r', o⟩, .done ?_⟩
        simp only [Filter.mapWhileOk, PacketDecoder.next, hr]
        split <;> rfl

/-! ## C66 -/

/-- The tools have a result for the reader `r`: `ccsds info`, `ccsds filter` with any arguments, `ccsds diff` with `r` as the left or the right file, and
the frame pipeline without Reed–Solomon. (A panic is a result.) -/
structure Ends (r : Reader) : Prop where
  info : ∀ (b : Build) (τ : Epoch → Int) (cds : Bool), ∃ res, Info.Runs b τ cds r res
  filter : ∀ (b : Build) (τ : Epoch → Int) (incl excl : List U16) (before after : Option Epoch), ∃ res, Filter.Runs b τ r incl excl before after res
  diff : ∀ (crc : List U8 → U32) (bs : List U8) (g : Option MFile) (sc : Bool), (∀ f ∈ g, f.reader.tail = .eof) →
    (∃ res, Diff.Runs crc (some ⟨bs, r⟩) g sc res) ∧ (∃ res, Diff.Runs crc g (some ⟨bs, r⟩) sc res)
  frames : ∀ (b : Build) (c : Pipeline.Config), ∃ frames ended, Pipeline.Outputs b c r frames ended

/-- Full statement: they end on every reader. -/
def C66_full : Prop := ∀ r : Reader, Ends r

theorem info_ends (b : Build) (τ : Epoch → Int) (cds : Bool) (r : Reader) (ht : r.tail = .eof) : ∃ res, Info.Runs b τ cds r res := by
  obtain ⟨items, e, hc⟩ := C07_ends r ht
  cases e with
  | none => exact ⟨_, .panicked hc⟩
  | some s =>
    cases hl : Info.loop b τ (if cds then some Info.cdsDecoder else none) ⟨[], [], .default⟩ (oks items) with
    | panic => exact ⟨_, .loopPanicked hc hl⟩
    | ret st => exact ⟨_, .done hc hl (List.Perm.refl _)⟩

/-- `filter` without time bounds ends on every reader. -/
theorem C66_filter_untimed (b : Build) (τ : Epoch → Int) (incl excl : List U16) (r : Reader) : ∃ res, Filter.Runs b τ r incl excl none none res := by
  by_cases hn : incl = [] ∧ excl = []
  · exact ⟨_, .noFilters hn.1 hn.2 rfl rfl⟩
  · obtain ⟨ps, e, hc⟩ := mapWhile_end r 0
    exact ⟨_, .run (fun h => hn ⟨h.1, h.2.1⟩) ⟨ps, e, hc, rfl, rfl⟩⟩

theorem filter_ends (b : Build) (τ : Epoch → Int) (incl excl : List U16) (before after : Option Epoch) (r : Reader) (ht : r.tail = .eof) :
    ∃ res, Filter.Runs b τ r incl excl before after res := by
  by_cases hb : before.isSome || after.isSome
  · obtain ⟨items, e, hc⟩ := C07_ends r ht
    obtain ⟨gs, s, hg, _⟩ := C11_partition (oks items)
    have hne : ¬ (incl = [] ∧ excl = [] ∧ before = none ∧ after = none) := by
      rintro ⟨_, _, rfl, rfl⟩; simp at hb
    cases e with
    | none =>
      refine ⟨_, .run hne (ends := false) (items := (Filter.timedAll b (Filter.beforePanic (oks (gs.map (Except.ok (ε := Error)))))).1) ?_⟩
      rw [if_pos hb]
      exact ⟨items, none, hc, gs.map .ok, s, hg, rfl, rfl⟩
    | some s1 =>
      refine ⟨_, .run hne (ends := (Filter.timedAll b (oks (gs.map (Except.ok (ε := Error))))).2) (items := (Filter.timedAll b (oks (gs.map (Except.ok (ε := Error))))).1) ?_⟩
      rw [if_pos hb]
      exact ⟨items, some s1, hc, gs.map .ok, s, hg, rfl⟩
  · cases before with
    | some x => simp at hb
    | none =>
      cases after with
      | some x => simp at hb
      | none => exact C66_filter_untimed b τ incl excl r

theorem diff_ends (crc : List U8 → U32) (f g : Option MFile) (sc : Bool) (hf : ∀ x ∈ f, x.reader.tail = .eof) (hg : ∀ x ∈ g, x.reader.tail = .eof) :
    ∃ res, Diff.Runs crc f g sc res := by
  cases f with
  | none => exact ⟨_, .noLeft rfl⟩
  | some f =>
    obtain ⟨items, e, hc⟩ := C07_ends f.reader (hf f rfl)
    cases e with
    | none => exact ⟨_, .leftPanics rfl hc⟩
    | some s =>
      cases g with
      | none => exact ⟨_, .noRight rfl hc rfl⟩
      | some g =>
        obtain ⟨gitems, e', hc'⟩ := C07_ends g.reader (hg g rfl)
        cases e' with
        | none => exact ⟨_, .rightPanics rfl hc rfl hc'⟩
        | some t => exact ⟨_, .compared rfl hc rfl hc'⟩

theorem yields_skip {b : Build} {derand : Bool} {y y' : Sync.Iter} {er : Error} {c : HMap U16 U32} {frames : List Frame} {e : Option Pipeline.State}
    (h : Sync.next y = .ret (some (.error er), y')) (k : Pipeline.Yields b derand ⟨y', c⟩ frames e) : Pipeline.Yields b derand ⟨y, c⟩ frames e := by
  cases k with
  | done k => exact .done (s := ⟨y, c⟩) (.skip h k)
  | stop k1 k2 => exact .stop (s := ⟨y, c⟩) (.skip h k1) k2
  | panicked k1 k2 => exact .panicked (s := ⟨y, c⟩) (.skip h k1) k2
  | frame k1 k2 k3 => exact .frame (s := ⟨y, c⟩) (.skip h k1) k2 k3

theorem yields_total (b : Build) (derand : Bool) {y : Sync.Iter} {items : List (Except Error Block)} {e : Option Sync.Iter}
    (h : Collects Sync.next y items e) (he : e ≠ none) : ∀ c, ∃ frames e, Pipeline.Yields b derand ⟨y, c⟩ frames e := by
  induction h with
  | done h => intro c; exact ⟨_, _, .done (s := ⟨_, c⟩) (.done h)⟩
  | panicked h => exact absurd rfl he
  | @step s s' a as e h _ ih =>
    intro c
    cases a with
    | error er =>
      obtain ⟨fr, e', k⟩ := ih he c
      exact ⟨_, _, yields_skip h k⟩
    | ok blk =>
      cases hn : FrameDecoder.next b ⟨c, [Pipeline.prep derand blk]⟩ with
      | panic => exact ⟨_, _, .panicked (s := ⟨_, c⟩) (.ok h) hn⟩
      | ret x =>
        obtain ⟨o, t⟩ := x
        cases o with
        | none => exact ⟨_, _, .stop (s := ⟨_, c⟩) (.ok h) hn⟩
        | some f =>
          obtain ⟨fr, e', k⟩ := ih he t.counters
          exact ⟨_, _, .frame (s := ⟨_, c⟩) (.ok h) hn k⟩

theorem frames_end (b : Build) (c : Pipeline.Config) (r : Reader) (ht : r.tail = .eof) : ∃ frames ended, Pipeline.Outputs b c r frames ended := by
  obtain ⟨items, s', h⟩ := C30_terminates_always r Sync.ASM c.blockLength (by decide) ht
  obtain ⟨fr, e, k⟩ := yields_total b c.derandomize h (by simp) []
  exact ⟨fr, e.isSome, e, k, rfl⟩

/-- What holds: they end on every reader that ends (a file, a pipe that is closed), whatever errors it reports before. -/
theorem C66_partial (r : Reader) (ht : r.tail = .eof) : Ends r where
  info b τ cds := info_ends b τ cds r ht
  filter b τ i e bf af := filter_ends b τ i e bf af r ht
  diff crc bs g sc hg := ⟨diff_ends crc _ _ sc (by simp [ht]) hg, diff_ends crc _ _ sc hg (by simp [ht])⟩
  frames b c := frames_end b c r ht

/-- `merge` has a result whenever its files end. -/
theorem C66_merge {Path : Type} [DecidableEq Path] (b : Build) (τ : Epoch → Int) (m : Merger Path) (files : Path → Option MFile)
    (hf : ∀ p f, files p = some f → f.reader.tail = .eof) : ∃ res, Merger.Merges b τ m files res := by
  by_cases hopen : ∃ p ∈ m.paths, files p = none
  · obtain ⟨p, hp, hn⟩ := hopen
    exact ⟨_, .openFails hp hn⟩
  · have hopen : ∀ p ∈ m.paths, files p ≠ none := fun p hp hn => hopen ⟨p, hp, hn⟩
    have hptr : ∀ p f, files p = some f → ∃ r, m.Pointers b τ p f r := by
      intro p f h
      obtain ⟨items, e, hc⟩ := C07_ends f.reader (hf p f h)
      obtain ⟨gs, s, hg, _⟩ := C11_partition (oks items)
      cases e with
      | none => exact ⟨none, items, none, hc, _, s, hg, rfl⟩
      | some s1 =>
        cases hl : m.pointersLoop b τ p (oks (gs.map (Except.ok (ε := Error)))) [] with
        | panic => exact ⟨none, items, some s1, hc, gs.map .ok, s, hg, by rw [hl]⟩
        | ret ps => exact ⟨some ps, items, some s1, hc, gs.map .ok, s, hg, by rw [hl]⟩
    have hidx : ∀ (visit : List Path), (∀ p ∈ visit, files p ≠ none) → ∀ idx, ∃ r, Merger.Index b τ m files visit idx r := by
      intro visit
      induction visit with
      | nil => intro _ idx; exact ⟨_, .done⟩
      | cons p ps ih =>
        intro ho idx
        cases hp : files p with
        | none => exact absurd hp (ho p (by simp))
        | some f =>
          obtain ⟨r, hr⟩ := hptr p f hp
          cases r with
          | none => exact ⟨_, .panicked hp hr⟩
          | some new =>
            obtain ⟨r, hi⟩ := ih (fun q hq => ho q (by simp [hq])) (Ptr.union τ idx new)
            exact ⟨r, .step hp hr (List.Perm.refl _) (List.Perm.refl _) hi⟩
    obtain ⟨r, hi⟩ := hidx (Merger.distinct m.paths) (fun p hp => hopen p ((Merger.mem_distinct _ _).1 hp)) []
    cases r with
    | none => exact ⟨_, .panicked hopen (List.Perm.refl _) hi⟩
    | some idx => exact ⟨_, .finished hopen (List.Perm.refl _) hi (List.Perm.refl _)⟩

/-! ### A reader that keeps failing -/

theorem collects_failing (c : Nat) (items : List (Except Error Packet)) (e : Option PacketDecoder) :
    ¬ Collects PacketDecoder.next (PacketDecoder.new ⟨[], .fail c⟩) items e := by
  intro h
  generalize hs : PacketDecoder.new ⟨[], .fail c⟩ = s at h
  induction h with
  | done h => subst hs; rw [show PacketDecoder.new ⟨[], .fail c⟩ = ⟨⟨[], .fail c⟩, 0⟩ from rfl, C07_fails_forever] at h; cases h
  | panicked h => subst hs; rw [show PacketDecoder.new ⟨[], .fail c⟩ = ⟨⟨[], .fail c⟩, 0⟩ from rfl, C07_fails_forever] at h; cases h
  | step h _ ih =>
    subst hs
    rw [show PacketDecoder.new ⟨[], .fail c⟩ = ⟨⟨[], .fail c⟩, 0⟩ from rfl, C07_fails_forever] at h
    cases h
    exact ih rfl

theorem sync_failing (c len : Nat) : Sync.next (Sync.iter ⟨[], .fail c⟩ Sync.ASM len) =
    .ret (some (.error (.io (.other c))), Sync.iter ⟨[], .fail c⟩ Sync.ASM len) := by
  have : Sync.scan (Sync.iter ⟨[], .fail c⟩ Sync.ASM len).scanner = .ret (.error (.io (.other c)), (Sync.iter ⟨[], .fail c⟩ Sync.ASM len).scanner) := by
    rw [Sync.scan]; rfl
  simp only [Sync.next, this]

theorem pulls_failing (c len : Nat) (o : Option Block) (s : Sync.Iter) : ¬ Pipeline.Pulls (Sync.iter ⟨[], .fail c⟩ Sync.ASM len) o s := by
  intro h
  generalize hs : Sync.iter ⟨[], .fail c⟩ Sync.ASM len = y at h
  induction h with
  | done h => subst hs; rw [sync_failing] at h; cases h
  | ok h => subst hs; rw [sync_failing] at h; cases h
  | skip h _ ih => subst hs; rw [sync_failing] at h; cases h; exact ih rfl

/-- On an input that cannot be read at all (on Linux a directory: it can be opened, and every `read` fails), `info`, `filter` with a time bound, `diff`
and the pipeline have no result: the reader reports the same error for ever (`C07_fails_forever`, `sync_failing`), and the error is skipped
for ever by `filter_map(Result::ok)`. -/
theorem C66_hang (c : Nat) : (∀ b τ cds res, ¬ Info.Runs b τ cds ⟨[], .fail c⟩ res) ∧
    (∀ b τ incl excl before after res, (before.isSome ∨ after.isSome) → ¬ Filter.Runs b τ ⟨[], .fail c⟩ incl excl before after res) ∧
    (∀ crc bs g sc res, ¬ Diff.Runs crc (some ⟨bs, ⟨[], .fail c⟩⟩) g sc res) ∧
    (∀ b cfg frames ended, ¬ Pipeline.Outputs b cfg ⟨[], .fail c⟩ frames ended) := by
  refine ⟨?_, ?_, ?_, ?_⟩
  · intro b τ cds res h
    cases h with
    | panicked h => exact collects_failing _ _ _ h
    | loopPanicked h => exact collects_failing _ _ _ h
    | done h => exact collects_failing _ _ _ h
  · intro b τ incl excl before after res ht h
    cases h with
    | noFilters _ _ h1 h2 => subst h1 h2; simp at ht
    | run _ h =>
      rw [if_pos (by simpa using ht)] at h
      obtain ⟨pitems, e, h, _⟩ := h
      exact collects_failing _ _ _ h
  · intro crc bs g sc res h
    cases h with
    | noLeft h => cases h
    | leftPanics h1 h2 => cases h1; exact collects_failing _ _ _ h2
    | noRight h1 h2 => cases h1; exact collects_failing _ _ _ h2
    | rightPanics h1 h2 => cases h1; exact collects_failing _ _ _ h2
    | compared h1 h2 => cases h1; exact collects_failing _ _ _ h2
  · rintro b cfg frames ended ⟨e, h, _⟩
    unfold Pipeline.start at h
    cases h with
    | done h => exact pulls_failing _ _ _ _ h
    | stop h => exact pulls_failing _ _ _ _ h
    | panicked h => exact pulls_failing _ _ _ _ h
    | frame h => exact pulls_failing _ _ _ _ h

/-- EISDIR. -/
theorem C66_violated : ¬ C66_full := by
  intro h
  obtain ⟨res, hr⟩ := (h ⟨[], .fail 21⟩).info ⟨true⟩ (fun e => e.nanos) true
  exact (C66_hang 21).1 _ _ _ _ hr

end Ccsds
