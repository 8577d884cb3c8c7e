import Verif.Cases.Merge
import Verif.Cases.Commands
import Verif.Props.Chunks
import Verif.Props.Concat
import Verif.Props.ConcatFrames
import Verif.Props.CucOrder
import Verif.Props.DataErrors
import Verif.Props.EndOfInput
import Verif.Props.Slips
import Verif.Props.Python
import Verif.Props.Abandon
/-!
# Concrete cases: how files are read, concatenated and damaged

Each theorem of `Props/Chunks`, `Props/Concat`, `Props/ConcatFrames`, `Props/CucOrder`, `Props/DataErrors`, `Props/EndOfInput`, `Props/Slips` and `Props/Python` that has
hypotheses, applied to concrete data that meets them. Where `example` is followed directly by `:=`, its statement is that of the theorem at these arguments.
-/
namespace Ccsds.Cases.Files
open Spec

/-! ## C100: the two packets of `FilterEx` in one chunk, and in two -/

def whole : Reader := ⟨[.data FilterEx.stream], .eof⟩
def halves : Reader := ⟨[.data (FilterEx.stream.take 9), .data (FilterEx.stream.drop 9)], .eof⟩
theorem same : SameStream whole halves := ⟨by decide +kernel, rfl⟩

example (items : List (Except Error Packet)) (e : Option PacketDecoder) (h : Collects PacketDecoder.next (PacketDecoder.new whole) items e) := C100_decode_packets whole halves same items e h
example (items : List (Except Error Block)) (e : Option Sync.Iter) (h : Collects Sync.next (Sync.iter whole Sync.ASM 8) items e) := C100_synchronize whole halves same Sync.ASM 8 items e h
example (b : Build) (frames : List Frame) (ended : Bool) (h : Pipeline.Outputs b (Pipeline.Config.new 8) whole frames ended) := C100_pipeline b (Pipeline.Config.new 8) whole halves same frames ended h
example (b : Build) (cds : Bool) (o : Option Info.Info) (h : Info.Runs b FilterEx.tau cds whole o) := C100_info b FilterEx.tau cds whole halves same o h
example (b : Build) (o : Filter.FResult) (h : Filter.Runs b FilterEx.tau whole [1#16] [] none none o) := C100_filter b FilterEx.tau whole halves same [1#16] [] none none o h
example (o : Diff.DResult) (h : Diff.Runs DiffEx.crc0 (some ⟨FilterEx.stream, whole⟩) none true o) : Diff.Runs DiffEx.crc0 (some ⟨FilterEx.stream, halves⟩) none true o :=
  C100_diff DiffEx.crc0 _ _ _ _ true o (.inr ⟨_, _, _, rfl, rfl, same⟩) (.inl ⟨rfl, rfl⟩) h
example (b : Build) (k : Codec) (s : RsStage.State) (h : Pipeline.Runs b k AbandonEx.cfg whole s) := C100_pipeline_rs b k AbandonEx.cfg whole halves same s h
example (b : Build) (k : Codec) (a : Framing.Args) (s : Framing.Summary) (w : List (List U8)) (h : Framing.Runs b k a 1 whole s w) := C100_framing b k a 1 whole halves same s w h
example (b : Build) (o : Merger.MResult) (h : Merger.Merges b FilterEx.tau CatEx.merger (fun _ => some ⟨FilterEx.stream, whole⟩) o) :
    Merger.Merges b FilterEx.tau CatEx.merger (fun _ => some ⟨FilterEx.stream, halves⟩) o :=
  C100_merge b FilterEx.tau CatEx.merger _ _ (fun _ => .inr ⟨_, _, _, rfl, rfl, same⟩) o h
example (b : Build) (items : List Filter.Item) (ends : Bool) (h : Lazy.PacketsWithTimes b whole items ends) := C100_timed b whole halves same items ends h
example (b : Build) (o : Option (List (Ptr Nat))) (h : Lazy.Pointers b FilterEx.tau CatEx.merger 0 ⟨FilterEx.stream, whole⟩ o) := C100_pointers b FilterEx.tau CatEx.merger 0 FilterEx.stream whole halves same o h
example := C100_buffered_read (BufReader.withCapacity 4 ⟨[.data [1, 2, 3, 4, 5, 6], .data [7, 8]], .eof⟩) _ (.ok [1]) rfl
example := C100_buffered_read_exact ⟨4, [3, 4], ⟨[.data [5, 6], .data [7, 8]], .eof⟩⟩ _ 3 _ _ (.loop (by decide) (.more (x := 3) (c := [4]) rfl (.more (x := 5) (c := []) rfl .full)))

/-! ## C98, C99 -/

/-- The first file ends with three bytes of the next packet, which the second file begins with. -/
example := C98_cut_short (FilterEx.early ++ FilterEx.late.take 3) (FilterEx.late.drop 3) (FilterEx.late.take 3) ⟨[.data (FilterEx.early ++ FilterEx.late.take 3)], .eof⟩
  ⟨[.data FilterEx.late], .eof⟩ whole (Merge.delivers (by decide)) (Merge.delivers (by decide)) (Merge.delivers (by decide)) [FilterEx.earlyPkt 0] [FilterEx.latePkt 0]
  ⟨_, .step rfl (.done rfl)⟩ (by decide) ⟨_, .step rfl (.done rfl)⟩

/-! ## C111 -/

example (b : Build) (as bs : List U8) (ha : as.length = 6) (hb : bs.length = 6) := C111_order b 4 2 (some (.fin false 475 5)) (by decide)
  ⟨996132000, by omega, by show _ = _ * 2 ^ 5; omega⟩ as bs ha hb

/-! ## C110 -/

theorem early_lt_late : FilterEx.tau Filter.minEpoch < FilterEx.tau Filter.maxEpoch := by decide

/-- The packets of APID 1 are kept, those of the other dropped. -/
example (b : Build) (r' : Reader) (hd' : r'.Delivers DataErrorsEx.damaged) (res res' : Filter.FResult) (h : Filter.Runs b FilterEx.tau ⟨[.data FilterEx.stream], .eof⟩ [1#16] [] none none res)
    (h' : Filter.Runs b FilterEx.tau r' [1#16] [] none none res') :=
  C110_filter b FilterEx.tau early_lt_late _ _ _ r' FilterEx.delivers hd' _ FilterEx.decodes DataErrorsEx.damagedData [1#16] [] (by simp) res res' h h'
example (b : Build) (r' : Reader) (hd' : r'.Delivers DataErrorsEx.damaged) (cds : Bool) (res res' : Option Info.Info) (h : Info.Runs b FilterEx.tau cds ⟨[.data FilterEx.stream], .eof⟩ res)
    (h' : Info.Runs b FilterEx.tau cds r' res') :=
  C110_info b FilterEx.tau cds _ _ _ r' FilterEx.delivers hd' _ FilterEx.decodes DataErrorsEx.damagedData res res' h h'

/-- C98 on the same packets, one in each file. -/
theorem early_delivers : Reader.Delivers ⟨[.data FilterEx.early], .eof⟩ FilterEx.early := Merge.delivers (by decide)
theorem late_delivers : Reader.Delivers ⟨[.data FilterEx.late], .eof⟩ FilterEx.late := Merge.delivers (by decide)
example (b : Build) (w w' : List (List U8)) (res : Filter.FResult) (h : Filter.Runs b FilterEx.tau ⟨[.data FilterEx.early], .eof⟩ [1#16] [] none none (.ok w))
    (h' : Filter.Runs b FilterEx.tau ⟨[.data FilterEx.late], .eof⟩ [1#16] [] none none (.ok w')) :=
  C98_filter b FilterEx.tau early_lt_late FilterEx.early FilterEx.late _ _ whole early_delivers late_delivers (Merge.delivers (by decide)) [FilterEx.earlyPkt 0] [FilterEx.latePkt 0]
    ⟨_, .step rfl (.done rfl)⟩ (by decide) ⟨_, .step rfl (.done rfl)⟩ [1#16] [] (by simp) w w' h h' res
example (b : Build) (cds : Bool) (i j k : Info.Info) (hi : Info.Runs b FilterEx.tau cds ⟨[.data FilterEx.early], .eof⟩ (some i))
    (hj : Info.Runs b FilterEx.tau cds ⟨[.data FilterEx.late], .eof⟩ (some j)) (hk : Info.Runs b FilterEx.tau cds whole (some k)) :=
  C98_info b FilterEx.tau cds FilterEx.early FilterEx.late _ _ whole early_delivers late_delivers (Merge.delivers (by decide)) [FilterEx.earlyPkt 0] [FilterEx.latePkt 0]
    ⟨_, .step rfl (.done rfl)⟩ (by decide) ⟨_, .step rfl (.done rfl)⟩ i j k hi hj hk

/-! ## C102 -/

example (b : Build) (items : List Filter.Item) (ends : Bool) := C102_timed_partial b whole (C102_delivers _ FilterEx.stream (Merge.delivers (by decide))) items ends
example (b : Build) (r : Option (List (Ptr Nat))) := C102_merge_partial b FilterEx.tau CatEx.merger 0 ⟨FilterEx.stream, whole⟩ (C102_delivers _ FilterEx.stream (Merge.delivers (by decide))) r
/-- After its end, more could be read. -/
theorem goesOn (post : List Ev) : GoesOn ⟨[.data FilterEx.early] ++ .data [] :: post, .eof⟩ ⟨[.data FilterEx.early], .eof⟩ := ⟨post, rfl, rfl, by intro e he h; simp only [List.mem_singleton] at he; subst he; exact absurd h (by decide)⟩
example (post : List Ev) := C102_decode_packets _ _ (goesOn post)
example (post : List Ev) (b : Build) (cds : Bool) := C102_info b FilterEx.tau cds _ _ (goesOn post)
example (post : List Ev) := C102_untimed _ _ (goesOn post)
example (gs : List PacketGroup) (ends : Bool) (h : Lazy.Groups (Lazy.start whole) gs ends) := C102_exact_ends whole gs ends h

/-! ## C112 -/

example (items : List (Except Error Block)) (e : Option Sync.Iter) (h : Collects Sync.next (Sync.iter ⟨[.data exSlip], .eof⟩ [0x1a, 0xcf] 2) items e) :=
  C112_costs_two ⟨[.data exSlip], .eof⟩ ⟨by intro e he; simp only [List.mem_singleton] at he; exact ⟨_, by decide, he⟩, by simp [evBytes, Ev.bytes], rfl⟩ items e h

/-! ## C70 -/

example := C70_packets FilterEx.stream whole (Merge.delivers (by decide))
example (ps qs : List Packet) (x y : Bool) (h : Py.DecodePackets whole ps x) (k : Py.DecodePackets whole qs y) := C70_packets_unique whole ps qs x y h k
example (gs gs' : List PacketGroup) (x y : Bool) (h : Py.DecodePacketGroups whole gs x) (k : Py.DecodePacketGroups whole gs' y) := C70_groups_unique whole gs gs' x y h k
example : ∃ ps gs stops, Py.DecodePackets whole ps stops ∧ Py.DecodePacketGroups whole gs stops := by
  obtain ⟨ps, _, stops, h, _⟩ := C70_packets FilterEx.stream whole (Merge.delivers (by decide))
  obtain ⟨gs, hg, _⟩ := C70_groups FilterEx.stream whole whole (Merge.delivers (by decide)) (Merge.delivers (by decide)) ps stops h
  exact ⟨ps, gs, stops, h, hg⟩

end Ccsds.Cases.Files
