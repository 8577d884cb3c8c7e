import Verif.Props.Diff
import Verif.Props.Info
import Verif.Props.Termination
import Verif.Proofs.Streaming
/-!
# C80: a read error is not hidden
-/
namespace Ccsds
open Spec

/-- The reader delivers the read results `pre` (bytes and interruptions), then a read fails with `k`; afterwards reads give `post` and then `t`. -/
structure FailsMidway (r : Reader) (pre : List Ev) (k : IoKind) (post : List Ev) (t : Tail) : Prop where
  eq : r = ⟨pre ++ .err k :: post, t⟩
  good : ∀ e ∈ pre, e.Good
  notInterrupted : k ≠ .interrupted
  notEof : k ≠ .unexpectedEof

/-- C80, the part that holds: `decode_packets` itself reports the error. It yields the packets it would yield from the bytes before the error alone (`items`), then the
error, and goes on with what can be read after it, as a fresh decoder would, only with the offset where it stood. -/
theorem C80_partial (r : Reader) (pre : List Ev) (k : IoKind) (post : List Ev) (t : Tail) (hr : FailsMidway r pre k post t) (items : List (Except Error Packet)) (o : Nat)
    (e : Option PacketDecoder) (h : Collects PacketDecoder.next ⟨⟨pre, .eof⟩, o⟩ items e) :
    (∃ ps : List Packet, items = ps.map .ok) ∧
    (e = none → Collects PacketDecoder.next ⟨r, o⟩ items none) ∧
    (∀ s, e = some s → ∀ more e', Collects PacketDecoder.next ⟨⟨post, t⟩, s.offset⟩ more e' →
      Collects PacketDecoder.next ⟨r, o⟩ (items ++ .error (.io k) :: more) e') := by
  obtain ⟨rfl, hg, hk, hk'⟩ := hr
  generalize hs : (⟨⟨pre, .eof⟩, o⟩ : PacketDecoder) = s0 at h
  induction h generalizing pre o with
  | @done s s' h =>
    subst hs
    refine ⟨⟨[], rfl⟩, fun h => (by cases h), ?_⟩
    intro s hs more e' hm
    cases hs
    by_cases hlen : packetLen (evBytes pre) ≤ (evBytes pre).length
    · by_cases hmax : packetLen (evBytes pre) ≤ 65536
      · obtain ⟨_, _, _, _, _, h'⟩ := C07_packet pre [] .eof o hg hlen hmax
        rw [List.append_nil] at h'
        rw [h] at h'; cases h'
      · have h6 : 6 ≤ (evBytes pre).length := Nat.le_trans (by unfold packetLen; omega) hlen
        have h' := C07_panic pre [] .eof o hg h6 (by omega)
        rw [List.append_nil, h] at h'; cases h'
    · by_cases hp : Partway (evBytes pre)
      · have h' := (C07_eof pre o hg hp).1
        rw [h] at h'
        cases h'
        refine .step ?_ hm
        rw [C07_error pre post t k o hg hp hk, if_neg hk']
      · have h6 : 6 ≤ (evBytes pre).length ∧ 65536 < packetLen (evBytes pre) := by
          unfold Partway at hp
          refine ⟨?_, ?_⟩ <;> omega
        have h' := C07_panic pre [] .eof o hg h6.1 h6.2
        rw [List.append_nil, h] at h'; cases h'
  | @panicked s h =>
    subst hs
    refine ⟨⟨[], rfl⟩, fun _ => ?_, fun _ h => (by cases h)⟩
    by_cases h6 : 6 ≤ (evBytes pre).length ∧ 65536 < packetLen (evBytes pre)
    · exact .panicked (C07_panic pre _ t o hg h6.1 h6.2)
    · by_cases hlen : packetLen (evBytes pre) ≤ (evBytes pre).length
      · have h6' : 6 ≤ (evBytes pre).length := Nat.le_trans (by unfold packetLen; omega) hlen
        obtain ⟨_, _, _, _, _, h'⟩ := C07_packet pre [] .eof o hg hlen (by omega)
        rw [List.append_nil] at h'
        rw [h] at h'; cases h'
      · have h' := (C07_eof pre o hg ⟨by omega, by omega⟩).1
        rw [h] at h'; cases h'
  | @step s s' a as e h hc ih =>
    subst hs
    have hlen : packetLen (evBytes pre) ≤ (evBytes pre).length ∧ packetLen (evBytes pre) ≤ 65536 := by
      refine ⟨?_, ?_⟩ <;> apply Classical.byContradiction <;> intro hn
      · by_cases hp : Partway (evBytes pre)
        · have h' := (C07_eof pre o hg hp).1
          rw [h] at h'; cases h'
        · have h' := C07_panic pre [] .eof o hg (by unfold Partway at hp; omega) (by unfold Partway at hp; omega)
          rw [List.append_nil, h] at h'; cases h'
      · by_cases h6 : 6 ≤ (evBytes pre).length
        · have h' := C07_panic pre [] .eof o hg h6 (by omega)
          rw [List.append_nil, h] at h'; cases h'
        · have h' := (C07_eof pre o hg ⟨by omega, by omega⟩).1
          rw [h] at h'; cases h'
    obtain ⟨ph, pre', _, hg', _, h'⟩ := C07_packet pre [] .eof o hg hlen.1 hlen.2
    rw [List.append_nil, List.append_nil] at h'
    obtain ⟨h2, _⟩ := PacketDecoder.next_andThen rfl h (.err k :: post) t
    rw [h] at h'
    simp only [Outcome.ret.injEq, Prod.mk.injEq, Option.some.injEq] at h'
    obtain ⟨rfl, rfl⟩ := h'
    obtain ⟨⟨ps, rfl⟩, ih⟩ := ih pre' _ hg' rfl
    exact ⟨⟨_ :: ps, rfl⟩, fun he => .step h2 (ih.1 he), fun s hs more e' hm => .step h2 (ih.2 s hs more e' hm)⟩

/-- What the consumers that skip errors (info, diff, merge, timed filter, the Python iterators) see: the packets before the error, followed by whatever the bytes
after it parse to. The error leaves no trace. -/
theorem C80_skipped (r : Reader) (pre : List Ev) (k : IoKind) (post : List Ev) (t : Tail) (hr : FailsMidway r pre k post t) (items more : List (Except Error Packet))
    (s : PacketDecoder) (e : Option PacketDecoder) (h : Collects PacketDecoder.next (PacketDecoder.new ⟨pre, .eof⟩) items (some s))
    (hm : Collects PacketDecoder.next ⟨⟨post, t⟩, s.offset⟩ more e) :
    ∃ all, Collects PacketDecoder.next (PacketDecoder.new r) all e ∧ oks all = oks items ++ oks more := by
  refine ⟨_, (C80_partial r pre k post t hr items 0 _ h).2.2 _ rfl _ _ hm, ?_⟩
  simp [oks, List.filterMap_append]

open Filter in
/-- What `ccsds filter` without times does: exactly what it does if the input ends where the read fails. In particular it succeeds, with the rest missing. -/
theorem C80_truncates (b : Build) (τ : Epoch → Int) (r : Reader) (pre : List Ev) (k : IoKind) (post : List Ev) (t : Tail) (hr : FailsMidway r pre k post t)
    (incl excl : List U16) (res : FResult) : Runs b τ r incl excl none none res ↔ Runs b τ ⟨pre, .eof⟩ incl excl none none res := by
  obtain ⟨items, e, hc⟩ := C07_ends ⟨pre, .eof⟩ rfl
  obtain ⟨⟨ps, rfl⟩, hp⟩ := C80_partial r pre k post t hr items 0 e hc
  have h1 := mapWhile_collects _ _ _ _ hc
  have h2 : ∃ e', Collects (mapWhileOk PacketDecoder.next) (PacketDecoder.new r) ps e' ∧ e'.isSome = e.isSome := by
    cases e with
    | none => exact ⟨none, mapWhile_collects _ _ _ _ (hp.1 rfl), rfl⟩
    | some s =>
      obtain ⟨rfl, hg, hk, hk'⟩ := hr
      -- one more step is enough: the reading after the error need not end
      have one : ∀ (ps : List Packet) (pre : List Ev) (o : Nat), (∀ e ∈ pre, e.Good) → ∀ s, Collects PacketDecoder.next ⟨⟨pre, .eof⟩, o⟩ (ps.map .ok) (some s) →
          ∃ y, Collects (mapWhileOk PacketDecoder.next) ⟨⟨pre ++ .err k :: post, t⟩, o⟩ ps (some y) := by
        intro ps pre o hg s hc
        obtain ⟨_, _, hx⟩ := C80_partial ⟨pre ++ .err k :: [], .eof⟩ pre k [] .eof ⟨rfl, hg, hk, hk'⟩ _ o _ hc
        have hy := hx s rfl [] (some ⟨⟨[], .eof⟩, s.offset⟩) (.done rfl)
        have run : ∀ (ps : List Packet) (x : PacketDecoder), x.reader.tail = .eof → ∀ e', Collects PacketDecoder.next x (ps.map .ok ++ [.error (.io k)]) e' →
            ∃ y, Collects (mapWhileOk PacketDecoder.next) ⟨x.reader.andThen post t, x.offset⟩ ps (some y) := by
          intro ps
          induction ps with
          | nil =>
            intro x hx e' h
            cases h with
            | step h _ =>
              obtain ⟨h2, _⟩ := PacketDecoder.next_andThen hx h post t
              exact ⟨_, .done (by simp only [mapWhileOk, h2]; rfl)⟩
          | cons p ps ih =>
            intro x hx e' h
            cases h with
            | step h hh =>
              obtain ⟨h2, h3⟩ := PacketDecoder.next_andThen hx h post t
              obtain ⟨y, hy⟩ := ih _ h3 _ hh
              exact ⟨y, .step (by simp only [mapWhileOk, h2]; rfl) hy⟩
        have := run ps _ rfl _ hy
        simpa [Reader.andThen] using this
      obtain ⟨y, hy⟩ := one ps pre 0 hg s hc
      exact ⟨some y, hy, rfl⟩
  obtain ⟨e', h2, he⟩ := h2
  have key : ∀ items ends, PacketsUntimed r items ends ↔ PacketsUntimed ⟨pre, .eof⟩ items ends := by
    intro items ends
    constructor
    · rintro ⟨qs, f, g1, g2, g3⟩
      obtain ⟨rfl, rfl⟩ := g1.unique h2
      exact ⟨qs, e, h1, g2, by rw [g3, he]⟩
    · rintro ⟨qs, f, g1, g2, g3⟩
      obtain ⟨rfl, rfl⟩ := g1.unique h1
      exact ⟨qs, e', h2, g2, by rw [g3, he]⟩
  constructor <;> intro h <;> cases h with
  | noFilters a b c d => exact .noFilters a b c d
  | run a h =>
    simp only [Option.isSome_none, Bool.or_self, Bool.false_eq_true, ↓reduceIte] at h
    refine .run a ?_
    simp only [Option.isSome_none, Bool.or_self, Bool.false_eq_true, ↓reduceIte]
    first | exact (key _ _).1 h | exact (key _ _).2 h

/-- Full statement: a command whose input cannot be read to the end does not report success. -/
def C80_full : Prop := ∀ (b : Build) (τ : Epoch → Int) (r : Reader) (pre : List Ev) (k : IoKind) (post : List Ev) (t : Tail), FailsMidway r pre k post t →
  (∀ incl excl before after w, ¬ Filter.Runs b τ r incl excl before after (.ok w)) ∧
  (∀ cds i, ¬ Info.Runs b τ cds r (some i)) ∧
  (∀ crc content other table showCounts, ¬ Diff.Runs crc (some ⟨content, r⟩) other showCounts (.same table)) ∧
  (∀ (m : Merger Nat) (files : Nat → Option MFile) (p : Nat) (content : List U8) w, p ∈ m.paths → files p = some ⟨content, r⟩ → ¬ Merger.Merges b τ m files (.ok w))

namespace InputErrorEx

/-- A packet, then a read error, then a second packet. -/
def reader : Reader := ⟨[.data FilterEx.early, .err (.other 5), .data FilterEx.late], .eof⟩

theorem fails : FailsMidway reader [.data FilterEx.early] (.other 5) [.data FilterEx.late] .eof :=
  ⟨rfl, by intro e he; simp only [List.mem_singleton] at he; subst he; exact .inl ⟨_, by decide, rfl⟩, by decide, by decide⟩

/-- Filter: success, and only the first packet. -/
theorem filter (b : Build) : Filter.Runs b FilterEx.tau reader [] [9#16] none none (.ok [FilterEx.early]) := by
  refine (C80_truncates b _ _ _ _ _ _ fails _ _ _).2 ?_
  have hd : Decodes ⟨[.data FilterEx.early], .eof⟩ [FilterEx.earlyPkt 0] := ⟨_, .step rfl (.done rfl)⟩
  exact (C53_untimed b FilterEx.tau (by decide) _ _ hd [] [9#16] (by simp) _).2 (by decide +kernel)

theorem all : Collects PacketDecoder.next (PacketDecoder.new reader) [.ok (FilterEx.earlyPkt 0), .error (.io (.other 5)), .ok (FilterEx.latePkt 14)]
    (some ⟨⟨[], .eof⟩, 28⟩) := .step rfl (.step rfl (.step rfl (.done rfl)))

theorem info (b : Build) : ∃ i, Info.Runs b FilterEx.tau false reader (some i) := by
  cases b with | mk o => cases o <;> exact ⟨_, .done all rfl (List.Perm.refl _)⟩

theorem diff : ∃ table, Diff.Runs DiffEx.crc0 (some ⟨FilterEx.stream, reader⟩) (some DiffEx.both) false (.same table) := by
  obtain ⟨s, hs⟩ := FilterEx.decodes
  have h1 := Diff.Runs.compared (crc := DiffEx.crc0) (left := some ⟨FilterEx.stream, reader⟩) (right := some DiffEx.both) (showCounts := false) rfl all rfl hs
  have h2 := Diff.Runs.compared (crc := DiffEx.crc0) (left := some DiffEx.both) (right := some DiffEx.both) (showCounts := false) rfl hs rfl hs
  obtain ⟨table, ht⟩ := (C54_partial DiffEx.crc0 DiffEx.both DiffEx.both _ _ false _ FilterEx.delivers FilterEx.delivers FilterEx.decodes FilterEx.decodes h2).2
    ⟨.inl (by simp), .inl (List.Perm.refl _)⟩
  rw [Merger.oks_map_ok] at h1 ht
  rw [show oks [.ok (FilterEx.earlyPkt 0), (.error (.io (.other 5)) : Except Error Packet), .ok (FilterEx.latePkt 14)] =
    [FilterEx.earlyPkt 0, FilterEx.latePkt 14] from rfl, ht] at h1
  exact ⟨table, h1⟩

/-- Three bytes, a read error, then a packet: `merge` copies from the wrong place. -/
def junk : List U8 := [0#8, 0#8, 0#8]
def content : List U8 := junk ++ MergeEx.bytes 1#8 0xc0#8 0#8
def skewed : Reader := ⟨[.data junk, .err (.other 5), .data (MergeEx.bytes 1#8 0xc0#8 0#8)], .eof⟩
def files : Nat → Option MFile := fun n => if n = 0 then some ⟨content, skewed⟩ else none

theorem skewed_fails : FailsMidway skewed [.data junk] (.other 5) [.data (MergeEx.bytes 1#8 0xc0#8 0#8)] .eof :=
  ⟨rfl, by intro e he; simp only [List.mem_singleton] at he; subst he; exact .inl ⟨_, by decide, rfl⟩, by decide, by decide⟩

theorem merges (b : Build) : Merger.Merges b MergeEx.tau MergeEx.merger files (.ok [content.take 14]) := by
  have hp : MergeEx.merger.Pointers b MergeEx.tau 0 ⟨content, skewed⟩ (some [MergeEx.ptr 1#8 0#8 0 1]) := by
    refine ⟨[.error (.io (.other 5)), .ok (MergeEx.pkt 1#8 0xc0#8 0#8 0)], some ⟨⟨[], .eof⟩, 14⟩, .step rfl (.step rfl (.done rfl)),
      [.ok ⟨1#16, [MergeEx.pkt 1#8 0xc0#8 0#8 0]⟩], _, .step rfl (.done rfl), ?_⟩
    have : MergeEx.merger.pointersLoop b MergeEx.tau 0 [⟨1#16, [MergeEx.pkt 1#8 0xc0#8 0#8 0]⟩] [] = .ret [MergeEx.ptr 1#8 0#8 0 1] := by
      cases b with | mk o => cases o <;> rfl
    rw [show oks [(.ok ⟨1#16, [MergeEx.pkt 1#8 0xc0#8 0#8 0]⟩ : Except Error PacketGroup)] = [⟨1#16, [MergeEx.pkt 1#8 0xc0#8 0#8 0]⟩] from rfl, this]
  have hidx : Merger.Index b MergeEx.tau MergeEx.merger files [0] [] (some [MergeEx.ptr 1#8 0#8 0 1]) :=
    .step (f := ⟨content, skewed⟩) rfl hp (List.Perm.refl _) (List.Perm.refl _) .done
  have := Merger.Merges.finished (m := MergeEx.merger) (files := files) (by intro p hp; simp [MergeEx.merger, Merger.new] at hp; subst hp; simp [files])
    (List.Perm.refl _) hidx (List.Perm.refl _)
  rwa [List.mergeSort_of_pairwise (by simp)] at this

end InputErrorEx

open InputErrorEx in
/-- The read error is hidden by filter, info, diff and merge; and `merge` then writes bytes that are no packet of the input. -/
theorem C80_violated : ¬ C80_full ∧
    (∃ r pre k post t w, FailsMidway r pre k post t ∧ Filter.Runs ⟨true⟩ FilterEx.tau r [] [9#16] none none (.ok w)) ∧
    (∃ r pre k post t i, FailsMidway r pre k post t ∧ Info.Runs ⟨true⟩ FilterEx.tau false r (some i)) ∧
    (∃ r pre k post t content g table, FailsMidway r pre k post t ∧ Diff.Runs DiffEx.crc0 (some ⟨content, r⟩) g false (.same table)) ∧
    (∃ r pre k post t content w, FailsMidway r pre k post t ∧
      Merger.Merges ⟨true⟩ MergeEx.tau MergeEx.merger (fun n => if n = 0 then some ⟨content, r⟩ else none) (.ok [w]) ∧
      ∃ p : Packet, Decodes ⟨post, t⟩ [p] ∧ p.data ≠ w) := by
  refine ⟨fun h => ?_, ?_, ?_, ?_, ?_⟩
  · exact (h ⟨true⟩ FilterEx.tau _ _ _ _ _ fails).1 _ _ _ _ _ (filter _)
  · exact ⟨_, _, _, _, _, _, fails, filter _⟩
  · obtain ⟨i, hi⟩ := info ⟨true⟩
    exact ⟨_, _, _, _, _, i, fails, hi⟩
  · obtain ⟨table, h⟩ := diff
    exact ⟨_, _, _, _, _, _, _, table, fails, h⟩
  · exact ⟨_, _, _, _, _, _, _, skewed_fails, merges _, MergeEx.pkt 1#8 0xc0#8 0#8 0, ⟨_, .step rfl (.done rfl)⟩, by decide⟩

/-- The hypotheses of `C80_partial` and `C80_skipped` are met. -/
example : ∃ all, Collects PacketDecoder.next (PacketDecoder.new InputErrorEx.reader) all (some ⟨⟨[], .eof⟩, 28⟩) ∧
    oks all = [FilterEx.earlyPkt 0, FilterEx.latePkt 14] :=
  C80_skipped _ _ _ _ _ InputErrorEx.fails [.ok (FilterEx.earlyPkt 0)] [.ok (FilterEx.latePkt 14)] ⟨⟨[], .eof⟩, 14⟩ _ (.step rfl (.done rfl)) (.step rfl (.done rfl))

end Ccsds
