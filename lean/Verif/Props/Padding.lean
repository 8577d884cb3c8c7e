import Verif.Props.Filter
import Verif.Props.Info
import Verif.Props.Merge
import Verif.Props.Diff
/-!
# C135: fill bytes after the packets

Recorders round their files up: `n` bytes `f` follow the last packet. What `decode_packets` makes of them.
-/
namespace Ccsds
open Spec Reader

/-- Full statement: fill bytes after the packets do not change what is decoded. -/
def C135_full : Prop := ∀ (ps : List Packet) (f : U8) (n : Nat) (r r' : Reader), (∀ p ∈ ps, p.WellFormed ∧ p.data.length ≤ 65536) →
  r.Delivers (wire ps) → r'.Delivers (wire ps ++ List.replicate n f) →
  ∃ qs, Decodes r qs ∧ Decodes r' qs

theorem fill_len6 : ∀ f : U8, packetLen (List.replicate 6 f) = 257 * f.toNat + 7 := by decide +kernel

/-- The length field of a run of one byte. -/
theorem fill_len (f : U8) (n : Nat) (h : 6 ≤ n) : packetLen (List.replicate n f) = 257 * f.toNat + 7 := by
  obtain ⟨k, rfl⟩ : ∃ k, n = 6 + k := ⟨n - 6, by omega⟩
  rw [← List.replicate_append_replicate, packetLen_append _ _ (by simp), fill_len6]

theorem fill_lt (f : U8) (h : f ≠ 0xff#8) : f.toNat ≤ 254 := by
  have := f.isLt
  have : f.toNat ≠ 255 := fun e => h (BitVec.eq_of_toNat_eq e)
  omega

/-- The packet that a run of the byte `f` looks like. -/
theorem fill_packet (f : U8) : ∃ h, (⟨h, List.replicate (257 * f.toNat + 7) f, 0⟩ : Packet).WellFormed := by
  obtain ⟨h, _, e, _⟩ := decode_take6 (List.replicate (257 * f.toNat + 7) f) (by simp)
  refine ⟨h, ?_, e⟩
  show (List.replicate (257 * f.toNat + 7) f).length = _
  rw [fill_len _ _ (by omega), List.length_replicate]

/-- Fewer than 6 bytes, whatever they are, are never seen. -/
theorem C135_short (ps : List Packet) (rest : List U8) (hr : rest.length < 6) (r' : Reader) (hw : ∀ p ∈ ps, p.WellFormed ∧ p.data.length ≤ 65536)
    (hd : r'.Delivers (wire ps ++ rest)) :
    ∃ qs, Decodes r' qs ∧ qs.map (fun p => (p.header, p.data)) = ps.map (fun p => (p.header, p.data)) := by
  have h7 := packetLen_ge rest
  obtain ⟨qs, s, h1, h2, _⟩ := C05_roundtrip ps rest r' hw (by omega) (by omega) hd
  exact ⟨qs, ⟨s, h1⟩, h2⟩

/-- Fill bytes `f` other than 0xFF: each whole `257·f + 7` of them are decoded as one more packet, and what is left over is not seen. -/
theorem C135_fill (ps : List Packet) (f : U8) (hf : f ≠ 0xff#8) (n : Nat) (r' : Reader) (hw : ∀ p ∈ ps, p.WellFormed ∧ p.data.length ≤ 65536)
    (hd : r'.Delivers (wire ps ++ List.replicate n f)) :
    ∃ qs, Decodes r' qs ∧ qs.map (·.data) = ps.map (·.data) ++ List.replicate (n / (257 * f.toNat + 7)) (List.replicate (257 * f.toNat + 7) f) := by
  obtain ⟨h, hh⟩ := fill_packet f
  have hlt := fill_lt f hf
  generalize hL : 257 * f.toNat + 7 = L at hh ⊢
  have hrep : ∀ k, wire (List.replicate k (⟨h, List.replicate L f, 0⟩ : Packet)) = List.replicate (k * L) f := by
    intro k
    induction k with
    | zero => simp [wire]
    | succ k ih =>
      rw [List.replicate_succ, show ∀ (p : Packet) ps, wire (p :: ps) = p.data ++ wire ps from fun _ _ => rfl, ih]
      show List.replicate L f ++ _ = _
      rw [List.replicate_append_replicate, Nat.succ_mul, Nat.add_comm]
  have hn : List.replicate n f = wire (List.replicate (n / L) (⟨h, List.replicate L f, 0⟩ : Packet)) ++ List.replicate (n % L) f := by
    rw [hrep, List.replicate_append_replicate, Nat.mul_comm, Nat.div_add_mod]
  have hmod : n % L < L := Nat.mod_lt _ (by omega)
  have h7 := packetLen_ge (List.replicate (n % L) f)
  obtain ⟨qs, s, h1, h2, _⟩ := C05_roundtrip (ps ++ List.replicate (n / L) ⟨h, List.replicate L f, 0⟩) (List.replicate (n % L) f) r'
    (by
      intro p hp
      rcases List.mem_append.1 hp with hp | hp
      · exact hw p hp
      · rw [(List.mem_replicate.1 hp).2]
        exact ⟨hh, by show (List.replicate L f).length ≤ _; rw [List.length_replicate]; omega⟩)
    (by
      rw [List.length_replicate]
      by_cases h6 : 6 ≤ n % L
      · rw [fill_len f _ h6]; omega
      · omega)
    (by intro h6; rw [List.length_replicate] at h6; rw [fill_len f _ h6]; omega)
    (by
      rw [show ∀ a c : List Packet, wire (a ++ c) = wire a ++ wire c from fun a c => by simp [wire], List.append_assoc, ← hn]
      exact hd)
  refine ⟨qs, ⟨s, h1⟩, ?_⟩
  have := congrArg (List.map Prod.snd) h2
  rw [List.map_map, List.map_map, List.map_append, List.map_replicate] at this
  exact this

/-- Zero bytes: one more packet of 7 bytes, APID 0, for each whole 7 of them. -/
theorem C135_zeros (ps : List Packet) (n : Nat) (r' : Reader) (hw : ∀ p ∈ ps, p.WellFormed ∧ p.data.length ≤ 65536)
    (hd : r'.Delivers (wire ps ++ List.replicate n 0#8)) :
    ∃ qs zs, Decodes r' (qs ++ zs) ∧ qs.map (·.data) = ps.map (·.data) ∧ zs.length = n / 7 ∧ ∀ z ∈ zs, z.data = List.replicate 7 0#8 ∧ z.header.apid = 0 := by
  obtain ⟨qs, h1, h2⟩ := C135_fill ps 0#8 (by decide) n r' hw hd
  obtain ⟨xs, zs, rfl, e1, e2⟩ := List.map_eq_append_iff.1 h2
  have hl := congrArg List.length e2
  simp only [List.length_map, List.length_replicate] at hl
  refine ⟨xs, zs, h1, e1, by simpa using hl, ?_⟩
  intro z hz
  have hz' : z.data ∈ zs.map (·.data) := List.mem_map_of_mem hz
  rw [e2] at hz'
  have hzd : z.data = List.replicate 7 0#8 := (List.mem_replicate.1 hz').2
  refine ⟨hzd, ?_⟩
  obtain ⟨_, hh⟩ := decodes_wellFormed hd h1 z (by simp [hz])
  rw [hzd] at hh
  rw [← Except.ok.inj ((show PrimaryHeader.decode (List.replicate 7 0#8) = .ok ⟨0#8, 0#8, false, 0#16, 0#8, 0#16, 0#16⟩ by decide +kernel).symm.trans hh)]
  rfl

/-- Decoding well-formed packets followed by bytes whose header announces too long a packet: the packets, and then a panic. -/
theorem decode_then_panic (ps : List Packet) (rest : List U8) (h1 : 6 ≤ rest.length) (h2 : 65536 < packetLen rest) : ∀ (r : Reader) (o : Nat),
    (∀ p ∈ ps, p.WellFormed ∧ p.data.length ≤ 65536) → r.Delivers (wire ps ++ rest) →
    ∃ qs : List Packet, Collects PacketDecoder.next ⟨r, o⟩ (qs.map .ok) none ∧ qs.map (fun p => (p.header, p.data)) = ps.map (fun p => (p.header, p.data)) := by
  induction ps with
  | nil =>
    intro r o _ hd
    exact ⟨[], .panicked (next_panic hd o (by simpa [wire] using h1) (by simpa [wire] using h2)), rfl⟩
  | cons p ps ih =>
    intro r o hw hd
    have ⟨⟨hl, hh⟩, hm⟩ := hw p List.mem_cons_self
    have h7 := packetLen_ge p.data
    have hb : wire (p :: ps) ++ rest = p.data ++ (wire ps ++ rest) := by simp [wire]
    have hpl : packetLen (wire (p :: ps) ++ rest) = p.data.length := by
      rw [hb, packetLen_append _ _ (by omega), hl]
    obtain ⟨h, r', e, hd', hn⟩ := next_complete hd o (by rw [hpl, hb]; simp) (by omega)
    rw [hpl, hb, List.drop_left] at hd'
    rw [hpl, hb, List.take_left] at hn
    have he : h = p.header := by
      have : PrimaryHeader.decode (wire (p :: ps) ++ rest) = PrimaryHeader.decode p.data := by
        rw [hb]; exact C01_prefix _ _ (by simp; omega) (List.take_append_of_le_length (by omega))
      rw [this, hh] at e
      injection e with e
      exact e.symm
    subst he
    obtain ⟨qs, hc, hq⟩ := ih r' (o + p.data.length) (fun q hq => hw q (List.mem_cons_of_mem _ hq)) hd'
    exact ⟨⟨p.header, p.data, o⟩ :: qs, .step hn hc, by simp [hq]⟩

/-- Six or more bytes 0xFF after the packets (erased flash memory): all packets are yielded, and then the decoder panics. -/
theorem C135_ones (ps : List Packet) (n : Nat) (hn : 6 ≤ n) (r' : Reader) (hw : ∀ p ∈ ps, p.WellFormed ∧ p.data.length ≤ 65536)
    (hd : r'.Delivers (wire ps ++ List.replicate n 0xff#8)) :
    ∃ qs : List Packet, Collects PacketDecoder.next (PacketDecoder.new r') (qs.map .ok) none ∧ qs.map (fun p => (p.header, p.data)) = ps.map (fun p => (p.header, p.data)) :=
  decode_then_panic ps _ (by simpa using hn) (by rw [fill_len _ _ hn]; decide) r' 0 hw hd

/-- `info` on such a file always panics, whatever it holds. -/
theorem C135_info_ones (b : Build) (τ : Epoch → Int) (cds : Bool) (ps : List Packet) (n : Nat) (hn : 6 ≤ n) (r' : Reader)
    (hw : ∀ p ∈ ps, p.WellFormed ∧ p.data.length ≤ 65536) (hd : r'.Delivers (wire ps ++ List.replicate n 0xff#8)) (res : Option Info.Info) :
    Info.Runs b τ cds r' res ↔ res = none := by
  obtain ⟨qs, h1, _⟩ := C135_ones ps n hn r' hw hd
  exact C56_panic b τ cds r' _ h1 res

/-- `filter` by APID on such a file writes what it would write without the fill, but then panics. -/
theorem C135_filter_ones (b : Build) (τ : Epoch → Int) (hτ : τ Filter.minEpoch < τ Filter.maxEpoch) (ps : List Packet) (n : Nat) (hn : 6 ≤ n) (r' : Reader)
    (hw : ∀ p ∈ ps, p.WellFormed ∧ p.data.length ≤ 65536) (hd : r'.Delivers (wire ps ++ List.replicate n 0xff#8)) (incl excl : List U16)
    (hne : incl ≠ [] ∨ excl ≠ []) (res : Filter.FResult) (h : Filter.Runs b τ r' incl excl none none res) :
    res = .panic ((ps.filter fun p => decide (ApidPasses incl excl p.header.apid)).map Packet.data) := by
  obtain ⟨qs, h1, h2⟩ := C135_ones ps n hn r' hw hd
  have hx : res = .panic ((qs.filter fun p => decide (ApidPasses incl excl p.header.apid)).map Packet.data) := by
    have hc := mapWhile_collects _ _ _ _ h1
    cases h with
    | noFilters a b _ _ => rcases hne with h | h <;> contradiction
    | run _ hi =>
      rw [if_neg (by simp)] at hi
      obtain ⟨ps', e, hp, rfl, rfl⟩ := hi
      obtain ⟨rfl, rfl⟩ := hp.unique hc
      simp only [Option.isSome_none, Bool.false_eq_true, if_false]
      rw [writes_untimed τ incl excl hτ]
  rw [hx]
  congr 1
  have key : ∀ l : List Packet, (l.filter fun p => decide (ApidPasses incl excl p.header.apid)).map Packet.data =
      ((l.map fun p => (p.header, p.data)).filter fun x => decide (ApidPasses incl excl x.1.apid)).map Prod.snd := by
    intro l
    rw [List.filter_map, List.map_map]
    rfl
  rw [key, key, h2]

/-- `info` on packets followed by `n` zero bytes reports `n / 7` packets too many, and packets of APID 0 if there are 7 or more. -/
theorem C135_info_zeros (b : Build) (τ : Epoch → Int) (cds : Bool) (ps : List Packet) (n : Nat) (r' : Reader) (hw : ∀ p ∈ ps, p.WellFormed ∧ p.data.length ≤ 65536)
    (hd : r'.Delivers (wire ps ++ List.replicate n 0#8)) :
    ∃ i : Info.Info, (∀ res, Info.Runs b τ cds r' res ↔ res = some i) ∧ i.summary.total = ps.length + n / 7 ∧ (7 ≤ n → ∃ s, (0#16, s) ∈ i.apids) := by
  obtain ⟨qs, zs, h1, h2, h3, h4⟩ := C135_zeros ps n r' hw hd
  obtain ⟨i, hi, hr⟩ := C56_info b τ cds _ r' _ hd h1
  have hl := congrArg List.length h2
  simp only [List.length_map] at hl
  refine ⟨i, hr, by rw [hi.total, List.length_append, hl, h3], ?_⟩
  intro h7
  refine (hi.present _).2 ?_
  cases zs with
  | nil => simp only [List.length_nil] at h3; omega
  | cons z zs => exact ⟨z, by simp, (h4 z (by simp)).2⟩

/-- `merge` panics if one of its inputs, all of which can be opened, ends so; nothing has been written then. -/
theorem C135_merge_ones {Path : Type} [DecidableEq Path] (b : Build) (τ : Epoch → Int) (m : Merger Path) (files : Path → Option MFile)
    (hall : ∀ p ∈ m.paths, files p ≠ none) (p : Path) (hp : p ∈ m.paths) (f : MFile) (hf : files p = some f) (ps : List Packet) (n : Nat) (hn : 6 ≤ n)
    (hw : ∀ p ∈ ps, p.WellFormed ∧ p.data.length ≤ 65536) (hd : f.reader.Delivers (wire ps ++ List.replicate n 0xff#8)) (res : Merger.MResult)
    (h : Merger.Merges b τ m files res) : res = .panic := by
  obtain ⟨qs, h1, _⟩ := C135_ones ps n hn f.reader hw hd
  cases h with
  | openFails hp hf => exact absurd hf (hall _ hp)
  | panicked => rfl
  | @finished visit idx idx' _ hv hi hperm =>
    exfalso
    have key : ∀ (visit : List Path) (idx : List (Ptr Path)) (r : Option (List (Ptr Path))), Merger.Index b τ m files visit idx r → r ≠ none → p ∉ visit := by
      intro visit idx r h
      induction h with
      | done => intro _; simp
      | panicked _ _ => intro h; exact absurd rfl h
      | step hf' hpt _ _ _ ih =>
        intro hne hmem
        rcases List.mem_cons.1 hmem with rfl | hmem
        · rw [hf] at hf'
          cases hf'
          obtain ⟨items, e, hc, _, _, _, hm⟩ := hpt
          obtain ⟨_, rfl⟩ := hc.unique h1
          simp at hm
        · exact ih hne hmem
    exact key _ _ _ hi (by simp) (hv.mem_iff.2 ((Merger.mem_distinct _ _).2 hp))

/-- `diff` panics if one of its files ends so. -/
theorem C135_diff_ones (crc : List U8 → U32) (f g : MFile) (ps : List Packet) (n : Nat) (hn : 6 ≤ n) (hw : ∀ p ∈ ps, p.WellFormed ∧ p.data.length ≤ 65536)
    (hd : f.reader.Delivers (wire ps ++ List.replicate n 0xff#8)) (gitems : List (Except Error Packet)) (e : Option PacketDecoder)
    (hg : Collects PacketDecoder.next (PacketDecoder.new g.reader) gitems e) (sc : Bool) (res : Diff.DResult) : Diff.Runs crc (some f) (some g) sc res ↔ res = .panic := by
  obtain ⟨qs, h1, _⟩ := C135_ones ps n hn f.reader hw hd
  exact C54_panic crc f g _ gitems none e sc res h1 hg (.inl rfl)

/-- Seven zero bytes after nothing at all are decoded as a packet. -/
theorem C135_violated : ¬ C135_full := by
  intro h
  obtain ⟨qs, h1, h2⟩ := h [] 0#8 7 ⟨[], .eof⟩ ⟨[.data (List.replicate 7 0#8)], .eof⟩ (by simp) ⟨by simp, rfl, rfl⟩
    ⟨by intro e he; exact .inl ⟨_, by decide, List.mem_singleton.1 he⟩, rfl, rfl⟩
  obtain ⟨qs', h3, h4⟩ := C135_fill [] 0#8 (by decide) 7 ⟨[.data (List.replicate 7 0#8)], .eof⟩ (by simp)
    ⟨by intro e he; exact .inl ⟨_, by decide, List.mem_singleton.1 he⟩, rfl, rfl⟩
  obtain ⟨s, h1⟩ := h1
  obtain ⟨s2, h2⟩ := h2
  obtain ⟨s3, h3⟩ := h3
  have e1 := map_ok_inj (h2.unique h3).1
  have e2 := (h1.unique (.done (s' := _) (by rfl) : Collects PacketDecoder.next (PacketDecoder.new ⟨[], .eof⟩) [] _)).1
  have e3 : qs = [] := List.map_eq_nil_iff.1 e2
  subst e1
  rw [e3] at h4
  cases h4

/-! Two packets, 20 zero bytes or 20 bytes 0xFF after them. -/
namespace PaddingEx

def two : List Packet := [⟨⟨0, 0, false, 5, 3, 7, 0⟩, [0, 5, 0xc0, 7, 0, 0, 0xab], 0⟩, ⟨⟨0, 0, true, 1369, 1, 4711, 1⟩, [0x0d, 0x59, 0x52, 0x67, 0, 1, 0xaa, 0xbb], 0⟩]

theorem good : ∀ p ∈ two, p.WellFormed ∧ p.data.length ≤ 65536 := by
  unfold two Packet.WellFormed
  simp only [List.mem_cons, List.not_mem_nil, or_false, forall_eq_or_imp, forall_eq]
  decide +kernel

theorem delivers (bs : List U8) (h : bs ≠ []) : Reader.Delivers ⟨[.data bs], .eof⟩ bs :=
  ⟨by intro e he; exact .inl ⟨_, h, List.mem_singleton.1 he⟩, by simp [Ev.bytes], rfl⟩

def zeros : List U8 := wire two ++ List.replicate 20 0#8
def ones : List U8 := wire two ++ List.replicate 20 0xff#8

example : ∃ qs zs, Decodes ⟨[.data zeros], .eof⟩ (qs ++ zs) ∧ qs.map (·.data) = two.map (·.data) ∧ zs.length = 2 ∧ ∀ z ∈ zs, z.data = List.replicate 7 0#8 ∧ z.header.apid = 0 :=
  C135_zeros two 20 _ good (delivers zeros (by decide))
example : ∃ qs : List Packet, Collects PacketDecoder.next (PacketDecoder.new ⟨[.data ones], .eof⟩) (qs.map .ok) none ∧
    qs.map (fun p => (p.header, p.data)) = two.map (fun p => (p.header, p.data)) :=
  C135_ones two 20 (by decide) _ good (delivers ones (by decide))
example : ∃ qs, Decodes ⟨[.data (wire two ++ [0xff#8, 0xff#8, 0#8])], .eof⟩ qs ∧ qs.map (fun p => (p.header, p.data)) = two.map (fun p => (p.header, p.data)) :=
  C135_short two _ (by decide) _ good (delivers _ (by decide))
example (b : Build) (res : Option Info.Info) : Info.Runs b FilterEx.tau true ⟨[.data ones], .eof⟩ res ↔ res = none :=
  C135_info_ones b FilterEx.tau true two 20 (by decide) _ good (delivers ones (by decide)) res
example (b : Build) : ∃ i : Info.Info, (∀ res, Info.Runs b FilterEx.tau true ⟨[.data zeros], .eof⟩ res ↔ res = some i) ∧ i.summary.total = 2 + 20 / 7 ∧
    (7 ≤ 20 → ∃ s, (0#16, s) ∈ i.apids) := C135_info_zeros b FilterEx.tau true two 20 _ good (delivers zeros (by decide))
example (b : Build) (res : Filter.FResult) (h : Filter.Runs b FilterEx.tau ⟨[.data ones], .eof⟩ [5#16] [] none none res) :
    res = .panic [[0, 5, 0xc0, 7, 0, 0, 0xab]] :=
  C135_filter_ones b FilterEx.tau (by decide) two 20 (by decide) _ good (delivers ones (by decide)) [5#16] [] (.inl (by simp)) res h


example (b : Build) (res : Merger.MResult) (h : Merger.Merges b FilterEx.tau (Merger.new [0] MergeEx.dec) (fun n : Nat => if n = 0 then some ⟨ones, ⟨[.data ones], .eof⟩⟩ else none) res) :
    res = .panic :=
  C135_merge_ones b FilterEx.tau _ _ (by intro p hp; simp [Merger.new] at hp; simp [hp]) 0 (by simp [Merger.new]) ⟨ones, ⟨[.data ones], .eof⟩⟩ rfl two 20 (by decide) good
    (delivers ones (by decide)) res h
example (crc : List U8 → U32) (res : Diff.DResult) : Diff.Runs crc (some ⟨ones, ⟨[.data ones], .eof⟩⟩) (some ⟨[], ⟨[], .eof⟩⟩) true res ↔ res = .panic :=
  C135_diff_ones crc _ _ two 20 (by decide) good (delivers ones (by decide)) [] _ (.done rfl) true res

end PaddingEx

end Ccsds
