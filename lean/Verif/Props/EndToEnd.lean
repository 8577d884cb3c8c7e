import Verif.Props.Pipeline
import Verif.Props.RsStage
import Verif.Props.Packets
/-!
# C59, C60: the whole receive path

`channel` lists the transmitted blocks and, with each, the block as received (before randomization is removed it is randomized, behind
its marker, somewhere in the bit stream).
-/
namespace Ccsds
open Spec Pipeline

/-- What the user must get for a transmitted block `tx` received as `rx`, after the blocks `before`: the decoded header, the corrected data
without check symbols and their disposition (fill frames pass as received), and the exact number of frames lost since the previous one of
the channel. -/
def Delivered (o : RS.Opts) (before : List (List U8)) (tx rx : List U8) (f : Frame) : Prop :=
  VCDUHeader.decode tx = some f.header ∧
  (if f.header.vcid = 63 then f.data = rx ∧ f.integrity = none
    else f.data = tx.take (tx.length - 32 * o.interleave.toNat) ∧ f.integrity = some (if rx = tx then .ok else .corrected)) ∧
  (match lastOfChannel (before.map blk) f.header.vcid with
    | none => f.missing = 0
    | some p => if f.header.vcid = 63 then f.missing = 0 else f.missing.toNat = gap (2 ^ 24) f.header.counter.toNat p.counter.toNat)

/-- The stream carries the received blocks. -/
structure Carries (derand : Bool) (S : List U8) (len : Nat) (pre post : List Bool) (rxs : List (List U8)) : Prop where
  nonempty : rxs ≠ []
  length : ∀ d ∈ rxs, d.length = len
  bits : bits S = pre ++ rxs.flatMap (fun d => bits Sync.ASM ++ bits (if derand then Pn.derandomize d else d)) ++ post
  first : FirstAt (Spec.bits Sync.ASM) (Spec.bits S) 0 pre.length
  last : ∀ i, pre.length + rxs.length * (32 + 8 * len) ≤ i → ¬ Occurs (Spec.bits Sync.ASM) (Spec.bits S) i

/-- Every block is a valid header followed by data, the counters of a channel increase. -/
structure Counts (txs : List (List U8)) : Prop where
  decodes : ∀ d ∈ txs, ∃ h, VCDUHeader.decode d = some h
  increase : ∀ i d h p, txs[i]? = some d → VCDUHeader.decode d = some h →
      lastOfChannel ((txs.take i).map blk) h.vcid = some p → p.counter.toNat < h.counter.toNat

/-- Every block that is not fill consists of interleaved code words and suffered at most 16 symbol errors in each of them, none in the
header. -/
structure Correctable (code : List U8 → Prop) (o : RS.Opts) (tx rx : List U8) : Prop where
  header : VCDUHeader.decode rx = VCDUHeader.decode tx
  length : tx.length + o.virtualFill = 255 * o.interleave.toNat
  same : rx.length = tx.length
  code : ∀ h, VCDUHeader.decode tx = some h → h.vcid ≠ 63 → ∀ i, i < o.interleave.toNat →
    code (codeword o.interleave.toNat (List.replicate o.virtualFill 0#8 ++ tx) i)
  errors : ∀ h, VCDUHeader.decode tx = some h → h.vcid ≠ 63 → ∀ i, i < o.interleave.toNat →
      dist (codeword o.interleave.toNat (List.replicate o.virtualFill 0#8 ++ rx) i)
        (codeword o.interleave.toNat (List.replicate o.virtualFill 0#8 ++ tx) i) ≤ 16

theorem lastOfChannel_decode {a c : List Block} (h : a.map (fun x => VCDUHeader.decode x.data) = c.map (fun x => VCDUHeader.decode x.data))
    (v : U16) : lastOfChannel a v = lastOfChannel c v := by
  have e : ∀ l : List Block, l.filterMap (fun c => VCDUHeader.decode c.data) = (l.map (fun x => VCDUHeader.decode x.data)).filterMap id := by
    intro l; rw [List.filterMap_map]; rfl
  unfold lastOfChannel
  rw [e a, e c, h]

/-- The frame that enters Reed-Solomon decoding becomes what must be delivered. -/
theorem job_delivers (k : Codec) (code : List U8 → Prop) (hk : Bounded k code) (o : RS.Opts)
    (hI : 0 < o.interleave.toNat) (hvf : o.virtualFill ≤ 223 * o.interleave.toNat) (hcorr : o.correct = true)
    (tx : List U8) (f : Frame) (h : Correctable code o tx f.data) (hh : VCDUHeader.decode f.data = some f.header) (hi : f.integrity = none) :
    ∃ g, RS.job k o f = .ret g ∧ g.header = f.header ∧ g.missing = f.missing ∧
      (if f.header.vcid = 63 then g.data = f.data ∧ g.integrity = none
        else g.data = tx.take (tx.length - 32 * o.interleave.toNat) ∧ g.integrity = some (if f.data = tx then .ok else .corrected)) := by
  by_cases h63 : f.header.vcid = 63
  · exact ⟨f, C44_fill k o f h63, rfl, rfl, by rw [if_pos h63]; exact ⟨rfl, hi⟩⟩
  · have hh' : VCDUHeader.decode tx = some f.header := by rw [← h.header]; exact hh
    exact ⟨_, C44_corrects k code hk o f tx h63 hI hvf h.length h.same (h.code _ hh' h63) (h.errors _ hh' h63) hcorr, rfl, rfl,
      by rw [if_neg h63]; exact ⟨rfl, rfl⟩⟩

/-- C59: the pipeline with Reed-Solomon. Whatever the schedule of its threads, the consumer sees a prefix of, and when the iterator ends
exactly, the delivered frames `outs`; no schedule aborts; as long as the consumer has not dropped the iterator it can be driven to the
end. -/
theorem C59_rs_pipeline (b : Build) (k : Codec) (code : List U8 → Prop) (hk : Bounded k code) (derand : Bool) (o : RS.Opts)
    (p : RsStage.Params) (hI : 0 < o.interleave.toNat) (hvf : o.virtualFill ≤ 223 * o.interleave.toNat) (hcorr : o.correct = true)
    (r : Reader) (S : List U8) (len : Nat) (pre post : List Bool) (channel : List (List U8 × List U8))
    (hr : Smooth r S) (hS : Carries derand S len pre post (channel.map (·.2))) (hcount : Counts (channel.map (·.1)))
    (hch : ∀ x ∈ channel, Correctable code o x.1 x.2) :
    ∃ outs : List Frame, outs.length = channel.length ∧
      (∀ i x f, channel[i]? = some x → outs[i]? = some f → Delivered o ((channel.take i).map (·.1)) x.1 x.2 f) ∧
      Runs b k ⟨derand, some (o, p), len⟩ r RsStage.State.init ∧
      ∀ s, Runs b k ⟨derand, some (o, p), len⟩ r s → s.aborted = none ∧ s.got <+: outs ∧ (s.cons = .ended → s.got = outs) ∧
        (1 ≤ p.workers → s.cons ≠ .gone → ∃ t, Runs b k ⟨derand, some (o, p), len⟩ r t ∧ t.cons = .ended ∧ t.got = outs) := by
  have hdecode : (channel.map (·.2)).map VCDUHeader.decode = (channel.map (·.1)).map VCDUHeader.decode := by
    rw [List.map_map, List.map_map]
    exact List.map_congr_left fun x hx => (hch x hx).header
  have hlast : ∀ i v, lastOfChannel (((channel.map (·.2)).take i).map blk) v = lastOfChannel (((channel.map (·.1)).take i).map blk) v := by
    intro i v
    apply lastOfChannel_decode
    rw [List.map_map, List.map_map]
    show ((channel.map (·.2)).take i).map VCDUHeader.decode = ((channel.map (·.1)).take i).map VCDUHeader.decode
    have e : ∀ l : List (List U8), (l.take i).map VCDUHeader.decode = (l.map VCDUHeader.decode).take i := fun l => List.map_take
    rw [e, e, hdecode]
  have hget : ∀ (i : Nat) d, (channel.map (·.2))[i]? = some d → ∃ x, channel[i]? = some x ∧ x.2 = d := by
    intro i d h
    rw [List.getElem?_map] at h
    cases hx : channel[i]? with
    | none => rw [hx] at h; cases h
    | some x => rw [hx] at h; exact ⟨x, rfl, by simpa using h⟩
  obtain ⟨frames, h1, h2, h3, h4⟩ := C52_increasing b derand r S len pre post (channel.map (·.2)) hr hS.nonempty hS.length
    (by
      intro d hd
      obtain ⟨x, hx, rfl⟩ := List.mem_map.1 hd
      obtain ⟨h, hh⟩ := hcount.decodes x.1 (List.mem_map.2 ⟨x, hx, rfl⟩)
      exact ⟨h, by rw [(hch x hx).header]; exact hh⟩)
    hS.bits hS.first hS.last
    (by
      intro i d h q hd hh hq
      obtain ⟨x, hx, rfl⟩ := hget i d hd
      rw [hlast] at hq
      exact hcount.increase i x.1 h q (by rw [List.getElem?_map, hx]; rfl)
        (by rw [← (hch x (List.mem_of_getElem? hx)).header]; exact hh) hq)
  have hflen : frames.length = channel.length := by
    have := congrArg List.length h2
    simpa using this
  have hfat : ∀ (i : Nat) f, frames[i]? = some f → ∃ x, channel[i]? = some x ∧ x.2 = f.data := by
    intro i f hf
    apply hget
    rw [← h2, List.getElem?_map, hf]; rfl
  have hjob : ∀ (i : Nat) f, frames[i]? = some f → ∃ x g, channel[i]? = some x ∧ RS.job k o f = .ret g ∧
      Delivered o ((channel.take i).map (·.1)) x.1 x.2 g := by
    intro i f hf
    obtain ⟨x, hx, hxd⟩ := hfat i f hf
    have hm := List.mem_of_getElem? hx
    have hc := hch x hm
    obtain ⟨e1, e2⟩ := h3 f (List.mem_of_getElem? hf)
    rw [hxd] at hc
    obtain ⟨g, a1, a2, a3, a4⟩ := job_delivers k code hk o hI hvf hcorr x.1 f hc e1 e2
    refine ⟨x, g, hx, a1, ?_, ?_, ?_⟩
    · rw [a2, ← hc.header]; exact e1
    · rw [a2, hxd]; exact a4
    · have := h4 i f hf
      rw [hlast, List.map_take] at this
      rw [a2, a3, List.map_take]
      rw [List.map_take] at *
      exact this
  obtain ⟨outs, ho, hrun⟩ := C42_rs p k code hk o frames hI hvf (by
    intro f hf _
    obtain ⟨i, hi⟩ := List.mem_iff_getElem?.1 hf
    obtain ⟨x, hx, hxd⟩ := hfat i f hi
    have hc := hch x (List.mem_of_getElem? hx)
    rw [← hxd, hc.same]; exact hc.length)
  have holen : outs.length = frames.length := by
    have := congrArg List.length ho
    simpa using this
  have huniq : ∀ frames' p' o' ended, some (o, p) = some (o', p') → Outputs b ⟨derand, some (o, p), len⟩ r frames' ended → o = o' ∧ p = p' ∧ frames' = frames := by
    intro frames' p' o' ended he hout
    cases he
    exact ⟨rfl, rfl, (C52_deterministic b _ r frames' frames ended true hout h1).1⟩
  refine ⟨outs, by omega, ?_, ⟨o, p, frames, true, rfl, h1, .init⟩, ?_⟩
  · intro i x f hx hf
    have hi : i < frames.length := by
      have := (List.getElem?_eq_some_iff.1 hf).1; omega
    obtain ⟨x', g, b1, b2, b3⟩ := hjob i _ (List.getElem?_eq_getElem hi)
    have hxx : x' = x := by rw [hx] at b1; cases b1; rfl
    subst hxx
    have : (outs.map Outcome.ret)[i]? = (frames.map (RS.job k o))[i]? := by rw [ho]
    rw [List.getElem?_map, List.getElem?_map, hf, List.getElem?_eq_getElem hi] at this
    simp only [Option.map_some, Option.some.injEq] at this
    rw [b2] at this
    cases this
    exact b3
  · rintro s ⟨o', p', frames', ended, he, hout, hreach⟩
    obtain ⟨rfl, rfl, rfl⟩ := huniq frames' p' o' ended he hout
    obtain ⟨c1, c2, c3⟩ := hrun s hreach
    refine ⟨c1, c2, c3, ?_⟩
    intro hw hgone
    obtain ⟨n, t, hst, ht1, ht2⟩ := C43_completes p hw (RS.job k o) frames' (by
      intro f hf
      obtain ⟨i, hi⟩ := List.mem_iff_getElem?.1 hf
      obtain ⟨_, g, _, b2, _⟩ := hjob i f hi
      rw [b2]; simp) s hreach hgone
    have hreach' : RsStage.Reach p (RS.job k o) frames' t := by
      clear ht1 ht2 c1 c2 c3 hgone
      induction hst with
      | zero => exact hreach
      | succ _ st ih => exact .step (ih hreach) st
    exact ⟨t, ⟨o, p, frames', true, rfl, h1, hreach'⟩, ht1, (hrun t hreach').2.2 ht1⟩

/-! Concrete: two code blocks of the repetition code (depth 1), the first received with three wrong symbols. -/

def exTx1 : List U8 := List.replicate 255 0x45#8
def exRx1 : List U8 := List.replicate 100 0x45#8 ++ [1#8, 2#8, 3#8] ++ List.replicate 152 0x45#8
def exTx2 : List U8 := List.replicate 255 0x46#8
def exChannel : List (List U8 × List U8) := [(exTx1, exRx1), (exTx2, exTx2)]
def exRsStream : List U8 := Sync.ASM ++ exRx1 ++ (Sync.ASM ++ exTx2)

theorem exRsStream_carries : Carries false exRsStream 255 [] [] (exChannel.map (·.2)) where
  nonempty := by decide
  length := by decide +kernel
  bits := by
    show bits (Sync.ASM ++ exRx1 ++ (Sync.ASM ++ exTx2)) = [] ++ ([exRx1, exTx2].flatMap fun d => bits Sync.ASM ++ bits d) ++ []
    rw [bits_append, bits_append, bits_append, List.nil_append, List.append_nil, List.flatMap_cons, List.flatMap_cons, List.flatMap_nil, List.append_nil]
  first := ⟨by omega, List.prefix_iff_eq_take.2 (by decide +kernel), by intro j _ hj; simp at hj⟩
  last := by
    intro i hi hoc
    have := hoc.length_le
    rw [List.length_drop, show (Spec.bits Sync.ASM).length = 32 from by decide, show (Spec.bits exRsStream).length = 4144 from by decide +kernel] at this
    simp only [exChannel, List.map_cons, List.map_nil, List.length_cons, List.length_nil] at hi
    omega

theorem exChannel_counts : Counts (exChannel.map (·.1)) where
  decodes := fun d hd => Option.isSome_iff_exists.1
    ((by decide +kernel : ∀ d ∈ exChannel.map (·.1), (VCDUHeader.decode d).isSome = true) d hd)
  increase := by
    intro i d h q hd hh hq
    match i with
    | 0 => simp [lastOfChannel] at hq
    | 1 =>
      have hd' : d = exTx2 := by simpa [exChannel] using hd.symm
      subst hd'
      have e2 : (VCDUHeader.decode exTx2).map (·.vcid) = some 6#16 := by decide +kernel
      rw [hh] at e2
      simp only [Option.map_some, Option.some.injEq] at e2
      have e3 : lastOfChannel (((exChannel.map (·.1)).take 1).map blk) 6#16 = none := by decide +kernel
      rw [e2, e3] at hq
      cases hq
    | n + 2 => simp [exChannel] at hd

theorem exChannel_correctable : ∀ x ∈ exChannel, Correctable repCode ⟨1, 0, true, true⟩ x.1 x.2 := by
  have h1 : (1#8).toNat = 1 := by decide
  intro x hx
  simp only [exChannel, List.mem_cons, List.not_mem_nil, or_false] at hx
  rcases hx with rfl | rfl
  · refine ⟨by decide +kernel, by decide +kernel, by decide +kernel, ?_, ?_⟩
    · intro _ _ _ i hi
      have : i = 0 := by
        have hi : i < (1#8).toNat := hi
        rw [h1] at hi; omega
      subst this
      exact ⟨0x45#8, by decide +kernel⟩
    · intro _ _ _ i hi
      have : i = 0 := by
        have hi : i < (1#8).toNat := hi
        rw [h1] at hi; omega
      subst this
      decide +kernel
  · refine ⟨by decide +kernel, by decide +kernel, by decide +kernel, ?_, ?_⟩
    · intro _ _ _ i hi
      have : i = 0 := by
        have hi : i < (1#8).toNat := hi
        rw [h1] at hi; omega
      subst this
      exact ⟨0x46#8, by decide +kernel⟩
    · intro _ _ _ i hi
      have : i = 0 := by
        have hi : i < (1#8).toNat := hi
        rw [h1] at hi; omega
      subst this
      decide +kernel

example (b : Build) : ∃ outs : List Frame, outs.length = 2 ∧
    Runs b (bddCodec repCode) ⟨false, some (⟨1, 0, true, true⟩, ⟨4, 2⟩), 255⟩ ⟨[.data exRsStream], .eof⟩ RsStage.State.init ∧
    ∀ s, Runs b (bddCodec repCode) ⟨false, some (⟨1, 0, true, true⟩, ⟨4, 2⟩), 255⟩ ⟨[.data exRsStream], .eof⟩ s → s.cons = .ended → s.got = outs := by
  obtain ⟨outs, h1, _, h2, h3⟩ := C59_rs_pipeline b (bddCodec repCode) repCode repCode_bounded false ⟨1, 0, true, true⟩ ⟨4, 2⟩ (by decide) (by decide) rfl
    ⟨[.data exRsStream], .eof⟩ exRsStream 255 [] [] exChannel
    ⟨by intro e he; simp only [List.mem_cons, List.not_mem_nil, or_false] at he; subst he; exact ⟨_, by decide +kernel, rfl⟩,
      by simp [evBytes, Ev.bytes], rfl⟩ exRsStream_carries exChannel_counts exChannel_correctable
  exact ⟨outs, h1, h2, fun s hs he => (h3 s hs).2.2.1 he⟩

/-! ## C60  From packets back to packets -/

/-- The frame data fields `datas` (header, insert zone, pointer, payload, trailer) carry, from their first payload byte on, the bytes
`tail` (the end of a packet begun earlier) and the packets `all`, cut anywhere, each frame with the prescribed first header pointer. -/
structure Framing (izone trailer : Nat) (tail : List U8) (all : List (List U8)) (datas : List (List U8)) : Prop where
  packets : ∀ q ∈ all, IsPacket q
  long : ∀ d ∈ datas, 6 + izone + trailer + 2 ≤ d.length
  size : ∀ d ∈ datas, (payloadOf izone trailer d).length < 2046
  bytes : (datas.map (payloadOf izone trailer)).flatten <+: tail ++ all.flatten
  pointers : ∀ before d after, datas = before ++ d :: after →
    FirstHeaderPointer (starts tail.length all) ((before.map (payloadOf izone trailer)).flatten.length)
      (payloadOf izone trailer d).length (pointerOf izone d)

/-- All blocks belong to channel `v`, and their counters are consecutive. -/
structure ConsecutiveCounters (v : U16) (txs : List (List U8)) : Prop where
  channel : ∀ d ∈ txs, ∃ h, VCDUHeader.decode d = some h ∧ h.vcid = v
  next : ∀ i c d hc hd, txs[i]? = some c → txs[i + 1]? = some d → VCDUHeader.decode c = some hc → VCDUHeader.decode d = some hd →
    hd.counter.toNat = hc.counter.toNat + 1

theorem lastOfChannel_consecutive {v : U16} {txs : List (List U8)} (h : ConsecutiveCounters v txs) (i : Nat) (c : List U8) (hc : txs[i]? = some c) :
    lastOfChannel ((txs.take (i + 1)).map blk) v = VCDUHeader.decode c := by
  obtain ⟨hd, e, hv⟩ := h.channel c (List.mem_of_getElem? hc)
  rw [List.take_add_one, hc, Option.toList_some, List.map_append, List.map_cons, List.map_nil,
    lastOfChannel_snoc _ _ hd (by exact e), if_pos hv, e]

theorem ConsecutiveCounters.counts {v : U16} {txs : List (List U8)} (h : ConsecutiveCounters v txs) : Counts txs where
  decodes := fun d hd => let ⟨x, e, _⟩ := h.channel d hd; ⟨x, e⟩
  increase := by
    intro i d hd p hi hdec hp
    obtain ⟨x, e, hv⟩ := h.channel d (List.mem_of_getElem? hi)
    have : hd.vcid = v := by rw [e] at hdec; cases hdec; exact hv
    rw [this] at hp
    cases i with
    | zero => simp [lastOfChannel] at hp
    | succ i =>
      have hlt : i < txs.length := by have := (List.getElem?_eq_some_iff.1 hi).1; omega
      have hc := List.getElem?_eq_getElem hlt
      rw [lastOfChannel_consecutive h i _ hc] at hp
      have := h.next i _ d p hd hc hi hp hdec
      omega

/-- On a channel with consecutive counters every delivered frame reports no loss. -/
theorem delivered_missing {o : RS.Opts} {v : U16} {txs : List (List U8)} (h : ConsecutiveCounters v txs) (i : Nat) (tx rx : List U8) (f : Frame)
    (htx : txs[i]? = some tx) (hf : Delivered o (txs.take i) tx rx f) : f.missing = 0#32 := by
  obtain ⟨hd, _, hm⟩ := hf
  obtain ⟨x, e, hv⟩ := h.channel tx (List.mem_of_getElem? htx)
  have hfv : f.header.vcid = v := by rw [e] at hd; cases hd; exact hv
  rw [hfv] at hm
  cases i with
  | zero => simpa [lastOfChannel] using hm
  | succ i =>
    have hlt : i < txs.length := by have := (List.getElem?_eq_some_iff.1 htx).1; omega
    have hc := List.getElem?_eq_getElem hlt
    rw [lastOfChannel_consecutive h i _ hc] at hm
    obtain ⟨y, ey, _⟩ := h.channel _ (List.mem_of_getElem? hc)
    rw [ey] at hm
    simp only at hm
    split at hm
    · exact hm
    · have := h.next i _ tx y f.header hc htx ey hd
      rw [this] at hm
      apply BitVec.eq_of_toNat_eq
      rw [hm]
      simp [gap]
      omega

/-- C60: packets, cut into frames of one channel, coded, interleaved, randomized, sent behind markers, damaged within the correction
radius and received in any pieces: the pipeline with Reed-Solomon followed by `packet_decoder` gives back exactly the packets whose last
byte arrived, in order, under every schedule of the decoding threads. -/
theorem C60_packets (b : Build) (k : Codec) (code : List U8 → Prop) (hk : Bounded k code) (derand : Bool) (o : RS.Opts)
    (p : RsStage.Params) (hI : 0 < o.interleave.toNat) (hvf : o.virtualFill ≤ 223 * o.interleave.toNat) (hcorr : o.correct = true)
    (r : Reader) (S : List U8) (len : Nat) (pre post : List Bool) (channel : List (List U8 × List U8))
    (hr : Smooth r S) (hS : Carries derand S len pre post (channel.map (·.2)))
    (v : U16) (hv : v ≠ 63) (hcons : ConsecutiveCounters v (channel.map (·.1)))
    (hch : ∀ x ∈ channel, Correctable code o x.1 x.2)
    (izone trailer : Nat) (tail : List U8) (all : List (List U8))
    (hfr : Framing izone trailer tail all (channel.map fun x => x.1.take (x.1.length - 32 * o.interleave.toNat))) :
    ∃ qs more, all = qs ++ more ∧
      (qs ≠ [] → tail.length + qs.flatten.length ≤
        ((channel.map fun x => payloadOf izone trailer (x.1.take (x.1.length - 32 * o.interleave.toNat))).flatten).length) ∧
      (∀ q, more.head? = some q → ((channel.map fun x => payloadOf izone trailer (x.1.take (x.1.length - 32 * o.interleave.toNat))).flatten).length
        < tail.length + qs.flatten.length + q.length) ∧
      (∃ s, Runs b k ⟨derand, some (o, p), len⟩ r s) ∧
      ∀ s, Runs b k ⟨derand, some (o, p), len⟩ r s → s.cons = .ended →
        ∃ ps st, Collects FramedPackets.next (FramedPackets.new s.got izone trailer) ps (some st) ∧
          ps.map (·.data) = qs ∧ ∀ q ∈ ps, Good q := by
  obtain ⟨outs, hlen, hdel, hinit, hruns⟩ := C59_rs_pipeline b k code hk derand o p hI hvf hcorr r S len pre post channel hr hS hcons.counts hch
  have hat : ∀ (i : Nat) f, outs[i]? = some f → ∃ x, channel[i]? = some x ∧ f.header.vcid = v ∧ f.missing = 0#32 ∧ ¬ Bad f ∧
      f.data = x.1.take (x.1.length - 32 * o.interleave.toNat) := by
    intro i f hf
    have hi : i < channel.length := by have := (List.getElem?_eq_some_iff.1 hf).1; omega
    have hx := List.getElem?_eq_getElem hi
    have hD := hdel i _ f hx hf
    have htx : (channel.map (·.1))[i]? = some (channel[i]).1 := by rw [List.getElem?_map, hx]; rfl
    obtain ⟨y, ey, hy⟩ := hcons.channel _ (List.mem_of_getElem? htx)
    have hfv : f.header.vcid = v := by have := hD.1; rw [ey] at this; cases this; exact hy
    refine ⟨_, hx, hfv, ?_, ?_, ?_⟩
    · rw [List.map_take] at hD
      exact delivered_missing hcons i _ _ f htx hD
    · have := hD.2.1
      rw [hfv, if_neg hv] at this
      unfold Bad
      rw [this.2]
      by_cases he : (channel[i]).2 = (channel[i]).1 <;> simp [he]
    · have := hD.2.1
      rw [hfv, if_neg hv] at this
      exact this.1
  have hdatas : outs.map (·.data) = channel.map fun x => x.1.take (x.1.length - 32 * o.interleave.toNat) := by
    apply List.ext_getElem?
    intro i
    rw [List.getElem?_map, List.getElem?_map]
    by_cases hi : i < outs.length
    · have hf := List.getElem?_eq_getElem hi
      obtain ⟨x, hx, _, _, _, hd⟩ := hat i _ hf
      rw [hf, hx]; simp [hd]
    · rw [List.getElem?_eq_none (by omega), List.getElem?_eq_none (by omega)]; rfl
  have hpay : outs.map (fun g => payloadOf izone trailer g.data) =
      channel.map fun x => payloadOf izone trailer (x.1.take (x.1.length - 32 * o.interleave.toNat)) := by
    have := congrArg (List.map (payloadOf izone trailer)) hdatas
    rw [List.map_map, List.map_map] at this
    exact this
  have hpay2 : outs.map (fun g => payloadOf izone trailer g.data) =
      (channel.map fun x => x.1.take (x.1.length - 32 * o.interleave.toNat)).map (payloadOf izone trailer) := by
    rw [← hdatas, List.map_map]; rfl
  have hmem : ∀ g ∈ outs, g.data ∈ channel.map fun x => x.1.take (x.1.length - 32 * o.interleave.toNat) := by
    intro g hg; rw [← hdatas]; exact List.mem_map.2 ⟨g, hg, rfl⟩
  have hatm : ∀ g ∈ outs, g.header.vcid = v ∧ ¬ Bad g ∧ g.missing = 0#32 := by
    intro g hg
    obtain ⟨i, hi⟩ := List.mem_iff_getElem?.1 hg
    obtain ⟨_, _, a, b, c, _⟩ := hat i g hi
    exact ⟨a, c, b⟩
  obtain ⟨ps, st, qs, more, h1, h2, h3, h4, h5, h6⟩ := C46_framing izone trailer v outs tail all
    (fun g hg => (hatm g hg).1)
    (fun g hg hs => by
      have := hfr.long _ (hmem g hg)
      unfold Short at hs; omega)
    (fun g hg => hfr.size _ (hmem g hg)) (fun g hg => (hatm g hg).2) hfr.packets
    (by rw [hpay2]; exact hfr.bytes)
    (by
      intro before g after he
      have := hfr.pointers (before.map (·.data)) g.data (after.map (·.data)) (by rw [← hdatas, he]; simp)
      rw [List.map_map] at this
      exact this)
  rw [hpay] at h5 h6
  refine ⟨qs, more, h4, h5, h6, ⟨_, hinit⟩, ?_⟩
  intro s hs he
  rw [(hruns s hs).2.2.1 he]
  exact ⟨ps, st, h1, h3, h2⟩

/-! Concrete: a packet of 300 bytes and one of 130 in two frames of channel 1, the second frame received with two wrong symbols; the code
is the two-word code of these frames. -/

def exP1 : List U8 := [0x08#8, 0x05#8, 0xc0#8, 0x00#8, 0x01#8, 0x25#8] ++ List.replicate 294 7#8
def exP2 : List U8 := [0x08#8, 0x05#8, 0xc0#8, 0x01#8, 0x00#8, 0x7b#8] ++ List.replicate 124 9#8
def exT1 : List U8 := [0x40#8, 0x41#8, 0#8, 0#8, 5#8, 0#8, 0#8, 0#8] ++ exP1.take 215 ++ List.replicate 32 0#8
def exT2 : List U8 := [0x40#8, 0x41#8, 0#8, 0#8, 6#8, 0#8, 0#8, 85#8] ++ exP1.drop 215 ++ exP2 ++ List.replicate 32 0xff#8
def exR2 : List U8 := exT2.take 50 ++ [1#8, 2#8] ++ exT2.drop 52
def exTwoCode (w : List U8) : Prop := w = exT1 ∨ w = exT2
def exTwoChannel : List (List U8 × List U8) := [(exT1, exT1), (exT2, exR2)]
def exTwoStream : List U8 := Sync.ASM ++ exT1 ++ (Sync.ASM ++ exR2)

theorem exTwoCode_bounded : Bounded (bddCodec exTwoCode) exTwoCode := by
  apply bddCodec_bounded
  · rintro c (rfl | rfl) <;> decide +kernel
  · rintro c c' (rfl | rfl) (rfl | rfl) hne
    · exact absurd rfl hne
    · decide +kernel
    · decide +kernel
    · exact absurd rfl hne

theorem exTwoStream_carries : Carries false exTwoStream 255 [] [] (exTwoChannel.map (·.2)) where
  nonempty := by decide
  length := by decide +kernel
  bits := by
    show bits (Sync.ASM ++ exT1 ++ (Sync.ASM ++ exR2)) = [] ++ ([exT1, exR2].flatMap fun d => bits Sync.ASM ++ bits d) ++ []
    rw [bits_append, bits_append, bits_append, List.nil_append, List.append_nil, List.flatMap_cons, List.flatMap_cons, List.flatMap_nil, List.append_nil]
  first := ⟨by omega, List.prefix_iff_eq_take.2 (by decide +kernel), by intro j _ hj; simp at hj⟩
  last := by
    intro i hi hoc
    have := hoc.length_le
    rw [List.length_drop, show (Spec.bits Sync.ASM).length = 32 from by decide, show (Spec.bits exTwoStream).length = 4144 from by decide +kernel] at this
    simp only [exTwoChannel, List.map_cons, List.map_nil, List.length_cons, List.length_nil] at hi
    omega

theorem exTwoChannel_consecutive : ConsecutiveCounters 1 (exTwoChannel.map (·.1)) where
  channel := by
    intro d hd
    have h := (by decide +kernel : ∀ d ∈ exTwoChannel.map (·.1), (VCDUHeader.decode d).map (·.vcid) = some 1#16) d hd
    cases e : VCDUHeader.decode d with
    | none => rw [e] at h; cases h
    | some x => rw [e] at h; exact ⟨x, rfl, by simpa using h⟩
  next := by
    intro i c d hc hd h1 h2 e1 e2
    match i with
    | 0 =>
      have h1' : c = exT1 := by simpa [exTwoChannel] using h1.symm
      have h2' : d = exT2 := by simpa [exTwoChannel] using h2.symm
      subst h1' h2'
      have a1 : (VCDUHeader.decode exT1).map (·.counter) = some 5#32 := by decide +kernel
      have a2 : (VCDUHeader.decode exT2).map (·.counter) = some 6#32 := by decide +kernel
      rw [e1] at a1
      rw [e2] at a2
      simp only [Option.map_some, Option.some.injEq] at a1 a2
      rw [a1, a2]; decide
    | n + 1 => simp [exTwoChannel] at h2

theorem exTwoChannel_correctable : ∀ x ∈ exTwoChannel, Correctable exTwoCode ⟨1, 0, true, true⟩ x.1 x.2 := by
  have h1 : (1#8).toNat = 1 := by decide
  intro x hx
  simp only [exTwoChannel, List.mem_cons, List.not_mem_nil, or_false] at hx
  rcases hx with rfl | rfl
  · refine ⟨rfl, by decide +kernel, rfl, ?_, ?_⟩ <;>
    · intro _ _ _ i hi
      have : i = 0 := by
        have hi : i < (1#8).toNat := hi
        rw [h1] at hi; omega
      subst this
      first
      | exact Or.inl (by decide +kernel)
      | decide +kernel
  · refine ⟨by decide +kernel, by decide +kernel, by decide +kernel, ?_, ?_⟩ <;>
    · intro _ _ _ i hi
      have : i = 0 := by
        have hi : i < (1#8).toNat := hi
        rw [h1] at hi; omega
      subst this
      first
      | exact Or.inr (by decide +kernel)
      | decide +kernel

theorem exTwo_framing : Framing 0 0 [] [exP1, exP2] (exTwoChannel.map fun x => x.1.take (x.1.length - 32 * 1)) where
  packets := by
    intro q hq
    simp only [List.mem_cons, List.not_mem_nil, or_false] at hq
    rcases hq with rfl | rfl <;> exact ⟨by decide +kernel, by decide +kernel, by decide +kernel, by decide +kernel⟩
  long := by decide +kernel
  size := by decide +kernel
  bytes := by
    rw [show (([] : List U8) ++ [exP1, exP2].flatten) =
      ((exTwoChannel.map fun x => x.1.take (x.1.length - 32 * 1)).map (payloadOf 0 0)).flatten from by decide +kernel]
    exact List.prefix_refl _
  pointers := by
    intro before d after he
    have e0 : (exTwoChannel.map fun x => x.1.take (x.1.length - 32 * 1)) = [exT1.take 223, exT2.take 223] := by decide +kernel
    rw [e0] at he
    match before with
    | [] =>
      simp only [List.nil_append, List.cons.injEq] at he
      obtain ⟨rfl, _⟩ := he
      refine .inl ⟨0, by decide +kernel, by decide +kernel, by decide +kernel, by decide +kernel, by intro y _ _; omega⟩
    | [x] =>
      simp only [List.cons_append, List.nil_append, List.cons.injEq] at he
      obtain ⟨rfl, rfl, _⟩ := he
      refine .inl ⟨300, by decide +kernel, by decide +kernel, by decide +kernel, by decide +kernel, ?_⟩
      intro y hy ha
      have hs : starts ([] : List U8).length [exP1, exP2] = [0, 300] := by decide +kernel
      have hl : ([exT1.take 223].map (payloadOf 0 0)).flatten.length = 215 := by decide +kernel
      rw [hs] at hy
      rw [hl] at ha
      simp only [List.mem_cons, List.not_mem_nil, or_false] at hy
      omega
    | x :: y :: l => simp at he

example (b : Build) : ∃ qs more, [exP1, exP2] = qs ++ more ∧
    (∀ q, more.head? = some q → 430 < qs.flatten.length + q.length) ∧
    ∀ s, Runs b (bddCodec exTwoCode) ⟨false, some (⟨1, 0, true, true⟩, ⟨4, 2⟩), 255⟩ ⟨[.data exTwoStream], .eof⟩ s → s.cons = .ended →
      ∃ ps st, Collects FramedPackets.next (FramedPackets.new s.got 0 0) ps (some st) ∧ ps.map (·.data) = qs := by
  obtain ⟨qs, more, h1, _, h2, _, h3⟩ := C60_packets b (bddCodec exTwoCode) exTwoCode exTwoCode_bounded false ⟨1, 0, true, true⟩ ⟨4, 2⟩ (by decide) (by decide) rfl
    ⟨[.data exTwoStream], .eof⟩ exTwoStream 255 [] [] exTwoChannel
    ⟨by intro e he; simp only [List.mem_cons, List.not_mem_nil, or_false] at he; subst he; exact ⟨_, by decide +kernel, rfl⟩,
      by simp [evBytes, Ev.bytes], rfl⟩ exTwoStream_carries 1 (by decide) exTwoChannel_consecutive exTwoChannel_correctable 0 0 [] [exP1, exP2] exTwo_framing
  refine ⟨qs, more, h1, ?_, ?_⟩
  · intro q hq
    have := h2 q hq
    have hl : (exTwoChannel.map fun x => payloadOf 0 0 (x.1.take (x.1.length - 32 * (1#8).toNat))).flatten.length = 430 := by decide +kernel
    have e : (⟨1, 0, true, true⟩ : RS.Opts).interleave = 1#8 := rfl
    rw [e, hl] at this
    simpa using this
  · intro s hs he
    obtain ⟨ps, st, a, c, _⟩ := h3 s hs he
    exact ⟨ps, st, a, c⟩

end Ccsds
