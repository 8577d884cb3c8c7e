import Verif.Props.ConcatFrames
import Verif.Props.Concat
import Verif.Cases.Frames
import Verif.Cases.More
import Verif.Props.Prompt
import Verif.Props.StreamingPipeline
/-!
# Concrete cases: files and recordings one after the other, beginnings of streams of frames

Theorems that have hypotheses and are not applied beside their proof, applied to concrete data that meets them.
-/
namespace Ccsds.Cases.Last
open Spec Pipeline

/-! ## C106: two recordings of one data unit each; `--length 8`, no Reed–Solomon -/

def args : Framing.Args := ⟨8, true, false, none, false, false, 0, none, 16, [], [], true⟩

example (b : Build) (k : Codec) (sA sB sJ : Framing.Summary) (wA wB wJ : List (List U8)) (RA : Framing.Runs b k args 1 ⟨[.data exRecA], .eof⟩ sA wA)
    (RB : Framing.Runs b k args 1 ⟨[.data exRecB], .eof⟩ sB wB) (RJ : Framing.Runs b k args 1 ⟨[.data (exRecA ++ exRecB)], .eof⟩ sJ wJ) : wJ = wA ++ wB := by
  obtain ⟨fJ, j1⟩ : ∃ fJ, Outputs b (Config.new 8) ⟨[.data (exRecA ++ exRecB)], .eof⟩ fJ true := by
    cases RJ with
    | plain _ h _ => exact ⟨_, h⟩
    | rs h _ _ _ => cases h
  exact (C106_framing b k args 1 ⟨[.data exRecA], .eof⟩ ⟨[.data exRecB], .eof⟩ ⟨[.data (exRecA ++ exRecB)], .eof⟩ exRecA exRecB (oneChunk_smooth _ (by simp [exRecA]))
    (oneChunk_smooth _ (by simp [exRecB])) (oneChunk_smooth _ (by simp [exRecA])) [0] 0 exRecA_ends exRecA_readable ⟨fJ, j1⟩ sA sB sJ wA wB wJ RA RB RJ).1

/-! ## C70: the same packets from an iterator that panics after them: the last group, which could have gone on, is lost -/

inductive PopsThenPanics : List Packet → Outcome (Option Packet × List Packet) → Prop where
  | nil : PopsThenPanics [] .panic
  | cons {p : Packet} {ps : List Packet} : PopsThenPanics (p :: ps) (.ret (some p, ps))

open More in
example : Py.Loops (Py.GroupsNext PopsThenPanics) ⟨[pk 3 0 8, pk 1 0 7, pk 2 1 7], none, false⟩ [⟨8, [pk 3 0 8]⟩] none :=
  C70_lazy_panic PopsThenPanics [pk 3 0 8, pk 1 0 7, pk 2 1 7] [pk 3 0 8, pk 1 0 7, pk 2 1 7] (.step .cons (.step .cons (.step .cons (.panicked .nil))))
    [⟨8, [pk 3 0 8]⟩, ⟨7, [pk 1 0 7, pk 2 1 7]⟩] ⟨[], none, true⟩
    (.step (s' := ⟨[pk 1 0 7, pk 2 1 7], none, false⟩) rfl (.step (s' := ⟨[], none, false⟩) rfl (.done rfl)))

/-! ## C68: packets A and B have been handed over; other frames follow -/

theorem takes_of_collects {S α : Type} {next : S → Outcome (Option α × S)} {s : S} {as : List α} {e : Option S} (h : Collects next s as e) :
    ∃ t, Takes next s as t := by
  induction h with
  | done _ => exact ⟨_, .nil⟩
  | panicked _ => exact ⟨_, .nil⟩
  | step h _ ih =>
    obtain ⟨t, ht⟩ := ih
    exact ⟨t, .cons h ht⟩

open Cases.Frames SemEx in
example (more : List Frame) : ∃ ps s, Takes FramedPackets.next (FramedPackets.new ([first, second] ++ more) 0 0) ps s ∧ ps.map (·.data) = [pktA, pktB] := by
  obtain ⟨ps, s, h, hd, _⟩ := C46_reassembly 0 0 43#16 [] first [second] [pktA, pktB] [] (by decide) (by decide +kernel) (by decide +kernel) (by decide) (by decide +kernel) (by decide)
    (by decide +kernel) (by decide +kernel) noPacket_nil (by decide)
  obtain ⟨t, ht⟩ := takes_of_collects h
  exact ⟨ps, _, C68_packet_decoder [first, second] more 0 0 ps t ht, hd⟩

/-- Two frames have arrived: the packets of the first one are the first packets of every longer recording. -/
example (b : Build) (T : List U8) (r' : Reader) (hr' : Smooth r' (exCadus ++ T)) (frames' : List Frame) (ended' : Bool) (h' : Outputs b (Config.new 8) r' frames' ended')
    (ps' : List Packet) (e' : Option FramedPackets.State) (hp' : Collects FramedPackets.next (FramedPackets.new frames' 0 0) ps' e') :
    ∃ f ps s, f.data = [0x67#8, 0x6b#8, 0#8, 0#8, 5#8, 0#8, 1#8, 2#8] ∧ Collects FramedPackets.next (FramedPackets.new [f] 0 0) ps (some s) ∧ ps <+: ps' := by
  obtain ⟨frames, h1, h2⟩ := exPipe_outputs b
  obtain ⟨f, fs, rfl, e1, e2⟩ := List.map_eq_cons_iff.1 h2
  obtain ⟨g, gs, rfl, e3, e4⟩ := List.map_eq_cons_iff.1 e2
  obtain rfl := List.map_eq_nil_iff.1 e4
  obtain ⟨outs, _, ⟨s, hs⟩, _⟩ := C47_channels 0 0 [f] (by
    intro x hx
    obtain rfl := List.mem_singleton.1 hx
    unfold Short; rw [e1]; decide)
  exact ⟨f, outs.flatten, s, e1, hs, C68_pipeline_packets b _ _ r' exCadus T exPipe_smooth hr' [f, g] frames' _ _ h1 h' 0 0 _ ps' _ e' hs hp'⟩

/-! ## C99: a segmented group of day 3, then one packet of another APID -/

namespace Apart
open FMEx MSEx Merger
open MSEx (day grp dec)

def tail : List U8 := FMEx.bytes 2#8 2#8 0xc0#8 0#8
def whole : List U8 := day 3#8 0#8 ++ tail
def gTail (off : Nat) : PacketGroup := ⟨2#16, [FMEx.pkt 2#8 2#8 0xc0#8 0#8 off]⟩
def files : Nat → Option MFile
  | 0 => some (MergeEx.file whole)
  | 1 => some (MergeEx.file (day 3#8 0#8))
  | 2 => some (MergeEx.file tail)
  | _ => none
def merger : Merger Nat := Merger.new [1, 2] MergeEx.dec

theorem readable : Readable files := by
  intro p f hf
  match p, hf with
  | 0, hf => cases hf; exact CatEx.delivers _ (by decide)
  | 1, hf => cases hf; exact CatEx.delivers _ (by decide)
  | 2, hf => cases hf; exact CatEx.delivers _ (by decide)

theorem groups0 : FileGroups (MergeEx.file whole) [grp 3#8 0#8 0, gTail 28] :=
  ⟨(grp 3#8 0#8 0).packets ++ (gTail 28).packets, _, _, .step rfl (.step rfl (.step rfl (.done rfl))), .step rfl (.step rfl (.done rfl))⟩
theorem groups2 : FileGroups (MergeEx.file tail) [gTail 0] := ⟨(gTail 0).packets, _, _, .step rfl (.done rfl), .step rfl (.done rfl)⟩

def pLate : Ptr Nat := ⟨1, 0, 28, time 3, 1#16, 0#16, 1⟩
def pTail : Ptr Nat := ⟨2, 0, 14, time 2, 2#16, 0#16, 2⟩
def qLate : Ptr Nat := ⟨0, 0, 28, time 3, 1#16, 0#16, 1⟩
def qTail : Ptr Nat := ⟨0, 28, 14, time 2, 2#16, 0#16, 2⟩

theorem mergesApart (b : Build) : Merges b MergeEx.tau merger files (.ok [tail, day 3#8 0#8]) := by
  have hi : Index b MergeEx.tau merger files [1, 2] [] (some [pLate, pTail]) :=
    .step rfl (MSEx.pointers_of CatEx.groups1 (ps := [pLate]) (by cases b with | mk o => cases o <;> rfl)) (List.Perm.refl _) (List.Perm.refl _)
      (by
        rw [show Ptr.union MergeEx.tau [] [pLate] = [pLate] by rfl]
        exact .step rfl (MSEx.pointers_of groups2 (ps := [pTail]) (by cases b with | mk o => cases o <;> rfl)) (List.Perm.refl _) (List.Perm.refl _)
          (by rw [show Ptr.union MergeEx.tau [pLate] [pTail] = [pLate, pTail] by rfl]; exact .done))
  have := Merges.finished (m := merger) (files := files) (by
      intro p hp
      simp [merger, Merger.new] at hp
      rcases hp with rfl | rfl <;> simp [files]) (List.Perm.refl _) hi (idx' := [pTail, pLate]) (List.Perm.swap _ _ _)
  rwa [List.mergeSort_of_pairwise (by decide)] at this

theorem decTail (b : Build) (off : Nat) : MergeEx.dec.decode b (FMEx.pkt 2#8 2#8 0xc0#8 0#8 off) = .ret (.ok (time 2)) := by
  have : MergeEx.dec.decode b (FMEx.pkt 2#8 2#8 0xc0#8 0#8 off) = Timecode.decode b (.cds 2 2) [2#8, 0#8, 0#8, 0#8, 0#8, 0#8, 0#8, 0#8] := rfl
  rw [this]
  cases b with | mk o => cases o <;> decide

theorem inputs {b : Build} {e : Entry Nat} (h : Inputs b MergeEx.tau merger files e) : e = ⟨1, grp 3#8 0#8 0, time 3⟩ ∨ e = ⟨2, gTail 0, time 2⟩ := by
  obtain ⟨p, g, t⟩ := e
  obtain ⟨hp, f, gs, hf, hgs, hg, he⟩ := h
  simp only at hp hf hg he
  have hp : p = 1 ∨ p = 2 := by simpa [merger, Merger.new] using hp
  obtain ⟨first, rest, ep, _, hd, _, _, _⟩ := he
  rcases hp with rfl | rfl
  · have : f = MergeEx.file (day 3#8 0#8) := (Option.some.inj (show some (MergeEx.file (day 3#8 0#8)) = some f from hf)).symm
    subst this
    have := fileGroups_unique hgs CatEx.groups1
    subst this
    simp only [List.mem_cons, List.not_mem_nil, or_false] at hg
    subst hg
    have e1 : pkt 3#8 1#8 0x40#8 0#8 0 = first := (List.cons.inj ep).1
    subst e1
    have := (dec b 3#8 0#8 0x40#8 3 0 (by simp)).symm.trans hd
    simp only [Outcome.ret.injEq, Except.ok.injEq] at this
    exact .inl (by rw [this])
  · have : f = MergeEx.file tail := (Option.some.inj (show some (MergeEx.file tail) = some f from hf)).symm
    subst this
    have := fileGroups_unique hgs groups2
    subst this
    simp only [List.mem_cons, List.not_mem_nil, or_false] at hg
    subst hg
    have e1 : FMEx.pkt 2#8 2#8 0xc0#8 0#8 0 = first := (List.cons.inj ep).1
    subst e1
    have := (decTail b 0).symm.trans hd
    simp only [Outcome.ret.injEq, Except.ok.injEq] at this
    exact .inr (by rw [this])

/-- Whatever merging the joined file gives, it is what merging the two files gives. -/
example (b : Build) (out : List (List U8)) (h : Merges b MergeEx.tau { merger with paths := [0] } files (.ok out)) : out = [tail, day 3#8 0#8] :=
  C99_partial b MergeEx.tau merger files 0 1 2 [] _ _ _ _ _ _ readable rfl rfl rfl rfl rfl CatEx.decodes (by decide)
    (by
      intro x y hx hy hk
      rcases inputs hx with rfl | rfl <;> rcases inputs hy with rfl | rfl <;> first | rfl | exact absurd hk (by decide))
    (by
      intro x y hx hy ht _
      rcases inputs hx with rfl | rfl <;> rcases inputs hy with rfl | rfl <;> first | rfl | exact absurd ht (by decide))
    _ _ CatEx.groups1 groups2 (by intro g hg h hh; simp at hg hh; subst hg hh; exact .inr (by decide)) (mergesApart b) h

end Apart

end Ccsds.Cases.Last
