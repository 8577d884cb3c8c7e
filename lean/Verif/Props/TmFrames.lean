import Verif.Props.Frame
/-!
# C122: lost frames of TM transfer frames

A TM transfer frame (CCSDS 132.0-B, version bits 00) has two counters of 8 bits: one that counts all frames of the spacecraft (master channel), one that counts the frames of its virtual
channel.  The number of frames of a channel lost between two of its frames follows from the second.  The library joins both into one number and counts with that.
-/
namespace Ccsds
open Spec

/-- Master channel frame count of a TM frame (octet 2). -/
def Spec.masterCount (frame : List (BitVec 8)) : Nat := field frame 16 8

/-- Virtual channel frame count of a TM frame (octet 3). -/
def Spec.channelCount (frame : List (BitVec 8)) : Nat := field frame 24 8

/-- A TM transfer frame of virtual channel `v`. -/
def Spec.TmFrame (v : Nat) (frame : List (BitVec 8)) : Prop := 6 ≤ frame.length ∧ field frame 0 2 = 0 ∧ field frame 12 3 = v

/-- `d` and later `c` are frames of the same virtual channel in the stream of TM frames `cadus`, with no frame of this channel between them; `c` is number `i`. -/
structure Spec.Successive (cadus : List (List (BitVec 8))) (i : Nat) (d c : List (BitVec 8)) : Prop where
  tm : ∀ x ∈ cadus, ∃ v, TmFrame v x
  found : ∃ j v, j < i ∧ cadus[j]? = some d ∧ cadus[i]? = some c ∧ TmFrame v d ∧ TmFrame v c ∧
    ∀ k x, j < k → k < i → cadus[k]? = some x → ¬ TmFrame v x

/-- C122, as one would expect it: in a stream of TM frames every frame but the first of its channel reports how many frames of the channel were lost before it. -/
def C122_full : Prop :=
  ∀ (b : Build) (cadus : List Block) (frames : List Frame) e, Collects (FrameDecoder.next b) (FrameDecoder.new cadus) frames e →
    ∀ i d c f, Successive (cadus.map (·.data)) i d c → frames[i]? = some f → f.missing.toNat = gap 256 (channelCount c) (channelCount d)

/-- The two counts, read as one number. -/
theorem counts_joined (bs : List U8) (h : 6 ≤ bs.length) : field bs 16 16 = 256 * masterCount bs + channelCount bs := by
  unfold masterCount channelCount field
  rw [show (16 : Nat) = 8 + 8 from rfl, List.take_add, List.drop_drop, natOfBits_append, show 8 + 8 + 8 = 24 from rfl]
  rw [show (List.take 8 (List.drop 24 (bits bs))).length = 8 by rw [List.length_take, List.length_drop, bits_length]; omega]
  omega

theorem masterCount_lt (bs : List U8) : masterCount bs < 256 := field_lt bs 16 8
theorem channelCount_lt (bs : List U8) : channelCount bs < 256 := field_lt bs 24 8

/-- The header decoded from a TM frame. -/
theorem tm_header {v : Nat} {bs : List U8} (h : TmFrame v bs) : ∃ hd, VCDUHeader.decode bs = some hd ∧ hd.version.toNat = 0 ∧ hd.vcid.toNat = v ∧
    hd.counter.toNat = 256 * masterCount bs + channelCount bs := by
  obtain ⟨hl, h0, hv⟩ := h
  obtain ⟨hd, e, e1, _, e3, e4⟩ := (C33_fields bs).2.1 hl h0
  exact ⟨hd, e, e1, by rw [e3, hv], by rw [e4, counts_joined bs hl]⟩

/-- The last header of a channel is that of the last frame of the channel. -/
theorem lastOfChannel_at {cadus : List Block} {i j v : Nat} {d : Block} {hd : VCDUHeader} (hji : j < i) (hj : cadus[j]? = some d) (hdec : VCDUHeader.decode d.data = some hd)
    (hv : hd.vcid.toNat = v) (hno : ∀ k x h, j < k → k < i → cadus[k]? = some x → VCDUHeader.decode x.data = some h → h.vcid.toNat ≠ v) :
    lastOfChannel (cadus.take i) hd.vcid = some hd := by
  have hjl := (List.getElem?_eq_some_iff.1 hj).1
  have hsplit : cadus.take i = cadus.take j ++ [d] ++ (cadus.take i).drop (j + 1) := by
    rw [show cadus.take j ++ [d] = (cadus.take i).take (j + 1) by
      rw [List.take_take, Nat.min_eq_left (by omega), List.take_add_one, hj]; rfl]
    exact (List.take_append_drop (j + 1) _).symm
  rw [hsplit]
  unfold lastOfChannel
  rw [List.filterMap_append, List.filter_append]
  have hempty : List.filter (fun h : VCDUHeader => h.vcid == hd.vcid) (List.filterMap (fun c : Block => VCDUHeader.decode c.data) ((cadus.take i).drop (j + 1))) = [] := by
    rw [List.filter_eq_nil_iff]
    intro h hm
    rw [List.mem_filterMap] at hm
    obtain ⟨x, hx, hxd⟩ := hm
    obtain ⟨k, hk⟩ := List.getElem?_of_mem hx
    rw [List.getElem?_drop, List.getElem?_take] at hk
    split at hk
    · have := hno (j + 1 + k) x h (by omega) (by omega) hk hxd
      intro e
      rw [beq_iff_eq] at e
      exact this (by rw [e, hv])
    · cases hk
  rw [hempty, List.append_nil, List.filterMap_append, List.filter_append]
  simp [hdec]

/-- What a frame reports, with the previous frame of its channel. -/
theorem tm_missing (b : Build) (cadus : List Block) (frames : List Frame) (e) (hc : Collects (FrameDecoder.next b) (FrameDecoder.new cadus) frames e) (i : Nat)
    (d c : List U8) (f : Frame) (hs : Successive (cadus.map (·.data)) i d c) (hf : frames[i]? = some f) :
    ∃ cur last : U32, cur.toNat = 256 * masterCount c + channelCount c ∧ last.toNat = 256 * masterCount d + channelCount d ∧ missingFrames b cur last = .ret f.missing := by
  obtain ⟨frames', e', hc', _, hall, _⟩ := C35_frames b cadus
  obtain ⟨rfl, rfl⟩ := hc.unique hc'
  obtain ⟨j, v, hji, hj, hi, hd, hcf, hno⟩ := hs.found
  rw [List.getElem?_map, Option.map_eq_some_iff] at hj hi
  obtain ⟨dB, hj, rfl⟩ := hj
  obtain ⟨cB, hi, rfl⟩ := hi
  obtain ⟨e1, _, _, hm⟩ := hall i cB f hi hf
  obtain ⟨hcd, ec, _, evc, ecc⟩ := tm_header hcf
  obtain ⟨hdd, ed, _, evd, edd⟩ := tm_header hd
  rw [ec] at e1
  have e1 := Option.some.inj e1
  have hvv : f.header.vcid = hdd.vcid := BitVec.eq_of_toNat_eq (by rw [← e1, evc, evd])
  have h63 : f.header.vcid ≠ 63 := by
    intro h
    have : v = 63 := by rw [← evc, e1, h]; rfl
    have h8 := hcf.2.2
    have : field cB.data 12 3 < 2 ^ 3 := field_lt _ _ _
    omega
  have hlast := lastOfChannel_at hji hj ed evd (by
    intro k x h h1 h2 h3 h4 h5
    have hkm : (cadus.map (·.data))[k]? = some x.data := by rw [List.getElem?_map, h3]; rfl
    obtain ⟨w, hw⟩ := hs.tm x.data (List.mem_of_getElem? hkm)
    obtain ⟨h', e', _, ev', _⟩ := tm_header hw
    rw [h4] at e'
    have e' := Option.some.inj e'
    subst e'
    exact hno k x.data h1 h2 hkm (by rw [← h5, ev']; exact hw))
  rw [hvv, hlast] at hm
  simp only at hm
  rw [if_neg (by rw [← hvv]; exact h63)] at hm
  exact ⟨_, _, by rw [← e1, ecc], edd, hm⟩

/-- C122, what the code does: the two counts of each frame are read as one number; if this number grew, the difference less one is reported; if it did not change, 16777214; if it fell,
16777214 less the decrease. -/
theorem C122_exact (b : Build) (cadus : List Block) (frames : List Frame) (e) (hc : Collects (FrameDecoder.next b) (FrameDecoder.new cadus) frames e) (i : Nat)
    (d c : List U8) (f : Frame) (hs : Successive (cadus.map (·.data)) i d c) (hf : frames[i]? = some f) :
    let last := 256 * masterCount d + channelCount d
    let cur := 256 * masterCount c + channelCount c
    (last < cur → f.missing.toNat = cur - last - 1) ∧ (cur = last → f.missing.toNat = 16777214) ∧ (cur < last → f.missing.toNat = 16777214 - (last - cur)) := by
  obtain ⟨cur, last, h1, h2, hm⟩ := tm_missing b cadus frames e hc i d c f hs hf
  have l1 := masterCount_lt c
  have l2 := channelCount_lt c
  have l3 := masterCount_lt d
  have l4 := channelCount_lt d
  obtain ⟨g1, g2, g3, _⟩ := C34_any b cur last
  simp only [← h1, ← h2]
  refine ⟨fun h => ?_, fun h => ?_, fun h => ?_⟩
  · rw [g2 h] at hm
    rw [← Outcome.ret.inj hm, BitVec.toNat_ofNat, Nat.mod_eq_of_lt (by omega)]
  · rw [g1 (BitVec.eq_of_toNat_eq h)] at hm
    rw [← Outcome.ret.inj hm]; rfl
  · rw [g3 h (by omega)] at hm
    rw [← Outcome.ret.inj hm, BitVec.toNat_ofNat, Nat.mod_eq_of_lt (by omega)]
    omega

/-- C122, exactly when the report is right: when the joined number grew by at most 256. -/
theorem C122_iff (b : Build) (cadus : List Block) (frames : List Frame) (e) (hc : Collects (FrameDecoder.next b) (FrameDecoder.new cadus) frames e) (i : Nat)
    (d c : List U8) (f : Frame) (hs : Successive (cadus.map (·.data)) i d c) (hf : frames[i]? = some f) :
    f.missing.toNat = gap 256 (channelCount c) (channelCount d) ↔
      256 * masterCount d + channelCount d < 256 * masterCount c + channelCount c ∧
      256 * masterCount c + channelCount c ≤ 256 * masterCount d + channelCount d + 256 := by
  obtain ⟨h1, h2, h3⟩ := C122_exact b cadus frames e hc i d c f hs hf
  have l1 := masterCount_lt c
  have l2 := channelCount_lt c
  have l3 := masterCount_lt d
  have l4 := channelCount_lt d
  unfold gap
  rcases Nat.lt_trichotomy (256 * masterCount d + channelCount d) (256 * masterCount c + channelCount c) with t | t | t
  · rw [h1 t]; omega
  · rw [h2 t.symm]; omega
  · rw [h3 t]; omega

/-- C122_partial: the report is right when the master channel count is that of the previous frame of the channel and the channel count grew (that is, when a multiple of 256 frames of
all channels, lost ones included, was sent between).
Missing: every other pair of frames, except the one case of `C122_iff`; in particular successive frames of a spacecraft with one channel (`C122_one_channel`). -/
theorem C122_partial (b : Build) (cadus : List Block) (frames : List Frame) (e) (hc : Collects (FrameDecoder.next b) (FrameDecoder.new cadus) frames e) (i : Nat)
    (d c : List U8) (f : Frame) (hs : Successive (cadus.map (·.data)) i d c) (hf : frames[i]? = some f)
    (hm : masterCount c = masterCount d) (hg : channelCount d < channelCount c) :
    f.missing.toNat = gap 256 (channelCount c) (channelCount d) := by
  have l2 := channelCount_lt c
  exact (C122_iff b cadus frames e hc i d c f hs hf).2 ⟨by omega, by omega⟩

/-- C122, no loss at all: the master channel count and the channel count both grew by one (one channel, nothing lost).  256 frames are reported lost, unless a count rolls over: 0 when
only the channel count does, 16711935 when only the master count does, 16711679 when both do. -/
theorem C122_one_channel (b : Build) (cadus : List Block) (frames : List Frame) (e) (hc : Collects (FrameDecoder.next b) (FrameDecoder.new cadus) frames e) (i : Nat)
    (d c : List U8) (f : Frame) (hs : Successive (cadus.map (·.data)) i d c) (hf : frames[i]? = some f)
    (hm : masterCount c = (masterCount d + 1) % 256) (hg : channelCount c = (channelCount d + 1) % 256) :
    gap 256 (channelCount c) (channelCount d) = 0 ∧
    f.missing.toNat = if channelCount d < 255 then (if masterCount d < 255 then 256 else 16711935) else if masterCount d < 255 then 0 else 16711679 := by
  obtain ⟨h1, h2, h3⟩ := C122_exact b cadus frames e hc i d c f hs hf
  have l1 := masterCount_lt c
  have l2 := channelCount_lt c
  have l3 := masterCount_lt d
  have l4 := channelCount_lt d
  refine ⟨by unfold gap; omega, ?_⟩
  rcases Nat.lt_trichotomy (256 * masterCount d + channelCount d) (256 * masterCount c + channelCount c) with t | t | t
  · rw [h1 t]; split <;> split <;> omega
  · omega
  · rw [h3 t]; split <;> split <;> omega

/-- TM frames never make the frame decoder panic, whatever the build. -/
theorem C122_no_panic (b : Build) (cadus : List Block) (htm : ∀ c ∈ cadus, ∃ v, TmFrame v c.data) :
    ∃ frames s, Collects (FrameDecoder.next b) (FrameDecoder.new cadus) frames (some s) ∧ frames.length = cadus.length := by
  obtain ⟨frames, e, hc, hlen, hall, he⟩ := C35_frames b cadus
  cases e with
  | some s =>
    rcases he with he | ⟨c, h1, h2, _⟩
    · exact ⟨frames, s, hc, he.1⟩
    · obtain ⟨v, hv⟩ := htm c (List.mem_of_getElem? h1)
      obtain ⟨hd, e, _⟩ := tm_header hv
      rw [h2] at e; cases e
  | none =>
    obtain ⟨_, c, h, p, h1, h2, h3, h4, _⟩ := C35_panic b cadus frames hc
    unfold lastOfChannel at h3
    have hm := List.mem_of_getLast? h3
    rw [List.mem_filter, List.mem_filterMap] at hm
    obtain ⟨⟨x, hx, hxd⟩, _⟩ := hm
    obtain ⟨v, hv⟩ := htm x (List.mem_of_mem_take hx)
    obtain ⟨hd, e, _, _, ecc⟩ := tm_header hv
    rw [hxd] at e
    have e := Option.some.inj e
    subst e
    have l3 := masterCount_lt x.data
    have l4 := channelCount_lt x.data
    omega

/-! ## A lossless stream -/

namespace TmCase

/-- Three frames of a spacecraft with one channel, nothing lost: SCID 700, channel 5, counts (7, 20), (8, 21), (9, 22). -/
def cadus : List Block :=
  [⟨0, ⟨0, 0⟩, [0x2b, 0xca, 7, 20, 0x18, 0, 1]⟩, ⟨0, ⟨0, 0⟩, [0x2b, 0xca, 8, 21, 0x18, 0, 2]⟩, ⟨0, ⟨0, 0⟩, [0x2b, 0xca, 9, 22, 0x18, 0, 3]⟩]

def frames : List Frame :=
  [⟨⟨0, 700, 5, 7 * 256 + 20⟩, 0, none, [0x2b, 0xca, 7, 20, 0x18, 0, 1]⟩, ⟨⟨0, 700, 5, 8 * 256 + 21⟩, 256, none, [0x2b, 0xca, 8, 21, 0x18, 0, 2]⟩,
    ⟨⟨0, 700, 5, 9 * 256 + 22⟩, 256, none, [0x2b, 0xca, 9, 22, 0x18, 0, 3]⟩]

theorem tm : ∀ x ∈ cadus.map (·.data), TmFrame 5 x := by
  unfold TmFrame; decide +kernel

theorem collects : ∃ e, Collects (FrameDecoder.next ⟨true⟩) (FrameDecoder.new cadus) frames e :=
  ⟨_, .step rfl (.step rfl (.step rfl (.done rfl)))⟩

theorem successive : Successive (cadus.map (·.data)) 2 [0x2b, 0xca, 8, 21, 0x18, 0, 2] [0x2b, 0xca, 9, 22, 0x18, 0, 3] where
  tm := fun x hx => ⟨5, tm x hx⟩
  found := ⟨1, 5, by omega, rfl, rfl, by unfold TmFrame; decide +kernel, by unfold TmFrame; decide +kernel, fun k x h1 h2 => by omega⟩

/-- The hypotheses of the theorems above are met by the three frames; 256 frames are reported lost. -/
example : (256#32 : U32).toNat = if (21 : Nat) < 255 then (if (8 : Nat) < 255 then 256 else 16711935) else if (8 : Nat) < 255 then 0 else 16711679 := by
  obtain ⟨e, hc⟩ := collects
  exact (C122_one_channel ⟨true⟩ cadus frames e hc 2 _ _ _ successive rfl (by decide +kernel) (by decide +kernel)).2

/-- The counts (8, 21) and (9, 22): as numbers of 16 bits 257 apart, and the report is wrong. -/
example : ∃ e, Collects (FrameDecoder.next ⟨true⟩) (FrameDecoder.new cadus) frames e ∧ (256#32 : U32).toNat = 2326 - 2069 - 1 ∧
    (256#32 : U32).toNat ≠ gap 256 (channelCount [0x2b, 0xca, 9, 22, 0x18, 0, 3]) (channelCount [0x2b, 0xca, 8, 21, 0x18, 0, 2]) := by
  obtain ⟨e, hc⟩ := collects
  refine ⟨e, hc, (C122_exact ⟨true⟩ cadus frames e hc 2 _ _ _ successive rfl).1 (by decide +kernel), ?_⟩
  intro h
  have := (C122_iff ⟨true⟩ cadus frames e hc 2 _ _ _ successive rfl).1 h
  revert this
  decide +kernel

/-- Two frames of channel 5 with 256 frames of other channels or lost ones between: here the count is right. -/
def far : List Block := [⟨0, ⟨0, 0⟩, [0x2b, 0xca, 7, 20, 0x18, 0, 1]⟩, ⟨0, ⟨0, 0⟩, [0x2b, 0xca, 7, 30, 0x18, 0, 2]⟩]

example : ∀ frames e, Collects (FrameDecoder.next ⟨true⟩) (FrameDecoder.new far) frames e → ∀ f, frames[1]? = some f → f.missing.toNat = 9 := by
  intro frames e hc f hf
  have h : Successive (far.map (·.data)) 1 [0x2b, 0xca, 7, 20, 0x18, 0, 1] [0x2b, 0xca, 7, 30, 0x18, 0, 2] :=
    { tm := fun x hx => ⟨5, by revert x; unfold TmFrame; decide +kernel⟩
      found := ⟨0, 5, by omega, rfl, rfl, by unfold TmFrame; decide +kernel, by unfold TmFrame; decide +kernel, fun k x h1 h2 => by omega⟩ }
  rw [C122_partial ⟨true⟩ far frames e hc 1 _ _ f h hf (by decide +kernel) (by decide +kernel)]
  decide +kernel

example : ∃ frames s, Collects (FrameDecoder.next ⟨true⟩) (FrameDecoder.new cadus) frames (some s) ∧ frames.length = cadus.length :=
  C122_no_panic ⟨true⟩ cadus (fun c hc => ⟨5, tm c.data (List.mem_map_of_mem hc)⟩)

end TmCase

/-- C122 fails: a complete stream of three TM frames; the last reports 256 lost frames. -/
theorem C122_violated : ¬ C122_full := by
  intro h
  obtain ⟨e, hc⟩ := TmCase.collects
  have := h ⟨true⟩ TmCase.cadus TmCase.frames e hc 2 _ _ _ TmCase.successive rfl
  revert this
  decide +kernel

end Ccsds
