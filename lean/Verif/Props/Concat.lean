import Verif.Props.MergeSteps
import Verif.Props.Info
/-!
# C98, C99: files one after the other (`cat A B`)
-/
namespace Ccsds
open Spec

/-- The packet, `n` bytes further into the file. -/
def Packet.shift (n : Nat) (p : Packet) : Packet := { p with offset := p.offset + n }

/-! ## C98 -/

/-- Offsets of packets that follow each other from position `o`. -/
def OffsetsFrom (o : Nat) : List Packet → Prop
  | [] => True
  | p :: ps => p.offset = o ∧ OffsetsFrom (o + p.data.length) ps

theorem offsetsFrom_of (ps : List Packet) : ∀ o, (∀ pre p post, ps = pre ++ p :: post → p.offset = o + (wire pre).length) → OffsetsFrom o ps := by
  induction ps with
  | nil => intro o _; trivial
  | cons p ps ih =>
    intro o h
    refine ⟨by simpa [wire] using h [] p ps rfl, ih _ fun pre q post e => ?_⟩
    have := h (p :: pre) q post (by rw [e]; rfl)
    rw [this]
    simp [wire]
    omega

theorem offsetsFrom_append (ps qs : List Packet) : ∀ o, OffsetsFrom o ps → OffsetsFrom (o + (wire ps).length) qs → OffsetsFrom o (ps ++ qs) := by
  induction ps with
  | nil => intro o _ h; simpa [wire] using h
  | cons p ps ih =>
    intro o h h'
    refine ⟨h.1, ih _ h.2 ?_⟩
    simpa [wire, Nat.add_assoc] using h'

theorem offsetsFrom_shift (n : Nat) (qs : List Packet) : ∀ o, OffsetsFrom o qs → OffsetsFrom (o + n) (qs.map (Packet.shift n)) := by
  induction qs with
  | nil => intro o _; trivial
  | cons p ps ih =>
    intro o h
    refine ⟨by simp [Packet.shift, h.1], ?_⟩
    have := ih _ h.2
    have e : o + n + (Packet.shift n p).data.length = o + p.data.length + n := by simp [Packet.shift]; omega
    rw [e]
    exact this

theorem offsetsFrom_unique (xs : List Packet) : ∀ (ys : List Packet) (o : Nat), proj xs = proj ys → OffsetsFrom o xs → OffsetsFrom o ys → xs = ys := by
  induction xs with
  | nil => intro ys o h _ _; cases ys <;> simp_all
  | cons x xs ih =>
    intro ys o h hx hy
    cases ys with
    | nil => simp at h
    | cons y ys =>
      simp only [proj, List.map_cons, List.cons.injEq, Prod.mk.injEq] at h
      have h1 := hx.1
      have h2 := hy.1
      have : x = y := by
        cases x; cases y
        simp_all
      subst this
      rw [ih ys _ h.2 hx.2 hy.2]

/-- Reading `A ++ B`, where `A` is the bytes of packets `ps`. -/
theorem decodes_after (B : List U8) (rB r : Reader) (hB : rB.Delivers B) (ps qs : List Packet) (hr : r.Delivers (wire ps ++ B))
    (hw : ∀ p ∈ ps, p.WellFormed ∧ p.data.length ≤ 65536) (ho : OffsetsFrom 0 ps) (hqs : Decodes rB qs) :
    Decodes r (ps ++ qs.map (Packet.shift (wire ps).length)) := by
  obtain ⟨sB, hqs⟩ := hqs
  obtain ⟨qs', rest, eB, b1, b2, b3, b4, b5, b6⟩ := C04_aux B.length B rB 0 (Nat.le_refl _) hB
  obtain ⟨h0, rfl⟩ := hqs.unique b1
  have := map_ok_inj h0
  subst this
  obtain ⟨h1, h2⟩ := b6 (by simp)
  obtain ⟨xs, s, c1, c2, c3⟩ := C05_roundtrip (ps ++ qs) rest r
    (fun p hp => (List.mem_append.1 hp).elim (hw p) (b3 p)) h1 h2
    (by
      have : wire (ps ++ qs) ++ rest = wire ps ++ B := by
        rw [b2]; simp [wire]
      rw [this]
      exact hr)
  have : xs = ps ++ qs.map (Packet.shift (wire ps).length) := by
    refine offsetsFrom_unique _ _ 0 ?_ (offsetsFrom_of _ 0 (by simpa [OffsetsOk] using c3)) (offsetsFrom_append _ _ _ ho ?_)
    · rw [proj, c2]
      simp [proj, Packet.shift]
    · exact offsetsFrom_shift _ _ _ (offsetsFrom_of _ 0 b4)
  rw [← this]
  exact ⟨s, c1⟩

theorem decodes_facts {A : List U8} {rA : Reader} (hA : rA.Delivers A) {ps : List Packet} (hps : Decodes rA ps) :
    (∀ p ∈ ps, p.WellFormed ∧ p.data.length ≤ 65536) ∧ OffsetsFrom 0 ps := by
  obtain ⟨sA, hps⟩ := hps
  obtain ⟨ps', restA, eA, a1, a2, a3, a4, a5, a6⟩ := C04_aux A.length A rA 0 (Nat.le_refl _) hA
  have := map_ok_inj (hps.unique a1).1
  subst this
  exact ⟨a3, offsetsFrom_of _ 0 a4⟩

/-- C98: of a file of whole packets followed by another file, `decode_packets` yields the packets of the first and then those of the second, each where it stands. -/
theorem C98_decode (A B : List U8) (rA rB r : Reader) (hA : rA.Delivers A) (hB : rB.Delivers B) (hr : r.Delivers (A ++ B)) (ps qs : List Packet)
    (hps : Decodes rA ps) (hwhole : wire ps = A) (hqs : Decodes rB qs) : Decodes r (ps ++ qs.map (Packet.shift A.length)) := by
  obtain ⟨h1, h2⟩ := decodes_facts hA hps
  subst hwhole
  exact decodes_after B rB r hB ps qs hr h1 h2 hqs

/-- C98: if the first file ends within a packet, what is left of it (`rest`) is not skipped: the packets after those of the first file are the ones read from `rest` and the second file
together, in which the packets of the second file need not be found again. -/
theorem C98_cut_short (A B rest : List U8) (rA rB r : Reader) (hA : rA.Delivers A) (hB : rB.Delivers (rest ++ B)) (hr : r.Delivers (A ++ B)) (ps qs : List Packet)
    (hps : Decodes rA ps) (hrest : A = wire ps ++ rest) (hqs : Decodes rB qs) : Decodes r (ps ++ qs.map (Packet.shift (wire ps).length)) := by
  obtain ⟨h1, h2⟩ := decodes_facts hA hps
  subst hrest
  exact decodes_after (rest ++ B) rB r hB ps qs (by simpa using hr) h1 h2 hqs

/-- C98: filtering the two files one after the other by APID writes what filtering the second adds to what filtering the first writes. -/
theorem C98_filter (b : Build) (τ : Epoch → Int) (hτ : τ Filter.minEpoch < τ Filter.maxEpoch) (A B : List U8) (rA rB r : Reader) (hA : rA.Delivers A) (hB : rB.Delivers B)
    (hr : r.Delivers (A ++ B)) (ps qs : List Packet) (hps : Decodes rA ps) (hwhole : wire ps = A) (hqs : Decodes rB qs) (incl excl : List U16) (hne : incl ≠ [] ∨ excl ≠ [])
    (w w' : List (List U8)) (h : Filter.Runs b τ rA incl excl none none (.ok w)) (h' : Filter.Runs b τ rB incl excl none none (.ok w')) (res : Filter.FResult) :
    Filter.Runs b τ r incl excl none none res ↔ res = .ok (w ++ w') := by
  have e := (C53_untimed b τ hτ rA ps hps incl excl hne _).1 h
  have e' := (C53_untimed b τ hτ rB qs hqs incl excl hne _).1 h'
  cases e
  cases e'
  rw [C53_untimed b τ hτ r _ (C98_decode A B rA rB r hA hB hr ps qs hps hwhole hqs) incl excl hne]
  have : ((ps ++ qs.map (Packet.shift A.length)).filter fun p => decide (ApidPasses incl excl p.header.apid)).map Packet.data =
      (ps.filter fun p => decide (ApidPasses incl excl p.header.apid)).map Packet.data ++ (qs.filter fun p => decide (ApidPasses incl excl p.header.apid)).map Packet.data := by
    rw [List.filter_append, List.map_append, List.filter_map, List.map_map]
    rfl
  rw [this]

/-- Number of packets of an APID in a report of `ccsds info`. -/
def Info.Info.packetsOf (i : Info.Info) (a : U16) : Nat := ((i.apids.filter fun x => x.1 == a).map fun x => x.2.total).sum

/-- Number of missing packets of an APID in a report of `ccsds info`. -/
def Info.Info.missingOf (i : Info.Info) (a : U16) : Nat := ((i.apids.filter fun x => x.1 == a).map fun x => x.2.missing).sum

/-- What is missing between the end of one list of sequence ids and the beginning of the next. -/
def junction (ks ls : List Nat) : Nat :=
  match ks.getLast?, ls.head? with
  | some k, some l => gap 16384 l k
  | _, _ => 0

theorem gapSum_append (ks : List Nat) : ∀ ls : List Nat, gapSum 16384 (ks ++ ls) = gapSum 16384 ks + gapSum 16384 ls + junction ks ls := by
  induction ks with
  | nil => intro ls; simp [gapSum, junction]
  | cons k ks ih =>
    intro ls
    cases ks with
    | nil =>
      cases ls with
      | nil => simp [gapSum, junction]
      | cons l ls => simp [gapSum, junction]; omega
    | cons k' ks =>
      have := ih ls
      simp only [List.cons_append, gapSum, junction, List.getLast?_cons_cons] at this ⊢
      omega

theorem reports_one {τ : Epoch → Int} {cds : Bool} {ps : List Packet} {i : Info.Info} (h : Reports τ cds ps i) (a : U16) :
    (ofApid ps a = [] ∧ i.apids.filter (fun x => x.1 == a) = []) ∨ ∃ s, i.apids.filter (fun x => x.1 == a) = [(a, s)] := by
  by_cases he : ∃ s, (a, s) ∈ i.apids
  · right
    obtain ⟨s, hs⟩ := he
    refine ⟨s, ?_⟩
    have hp := h.ascending
    clear h
    generalize i.apids = l at *
    induction l with
    | nil => simp at hs
    | cons x l ih =>
      rw [List.pairwise_cons] at hp
      have hlt : ∀ y ∈ l, y.1 ≠ x.1 := by
        intro y hy e
        have := hp.1 y hy
        rw [e, BitVec.lt_def] at this
        omega
      rcases List.mem_cons.1 hs with rfl | hs'
      · rw [List.filter_cons_of_pos (by simp), List.filter_eq_nil_iff.2 (fun y hy => by simpa using hlt y hy)]
      · rw [List.filter_cons_of_neg (by simpa using fun e => hlt _ hs' e.symm)]
        exact ih hs' hp.2
  · left
    have hn : ¬ ∃ p ∈ ps, p.header.apid = a := fun k => he ((h.present a).2 k)
    constructor
    · rw [ofApid, List.filter_eq_nil_iff]
      intro p hp
      simpa using fun e => hn ⟨p, hp, e⟩
    · rw [List.filter_eq_nil_iff]
      intro x hx
      simpa using fun e => he ⟨x.2, by rw [← e]; exact hx⟩

theorem reports_packetsOf {τ : Epoch → Int} {cds : Bool} {ps : List Packet} {i : Info.Info} (h : Reports τ cds ps i) (a : U16) :
    i.packetsOf a = (ofApid ps a).length ∧ i.missingOf a = gapSum 16384 (seqIds (ofApid ps a)) := by
  unfold Info.Info.packetsOf Info.Info.missingOf
  rcases reports_one h a with ⟨h1, h2⟩ | ⟨s, hs⟩
  · rw [h1, h2]; simp [seqIds, gapSum]
  · have hm : (a, s) ∈ i.apids := by
      have : (a, s) ∈ i.apids.filter (fun x => x.1 == a) := by rw [hs]; simp
      exact (List.mem_filter.1 this).1
    obtain ⟨k1, k2, _⟩ := h.each a s hm
    rw [hs]
    simp [k1, k2]

/-- The earlier of two times that may be absent. -/
def earlier (τ : Epoch → Int) : Option Epoch → Option Epoch → Option Int
  | none, none => none
  | some x, none => some (τ x)
  | none, some y => some (τ y)
  | some x, some y => some (min (τ x) (τ y))

/-- The later of two times that may be absent. -/
def later (τ : Epoch → Int) : Option Epoch → Option Epoch → Option Int
  | none, none => none
  | some x, none => some (τ x)
  | none, some y => some (τ y)
  | some x, some y => some (max (τ x) (τ y))

theorem span_append {τ : Epoch → Int} {ts us : List Epoch} {f l f' l' f'' l'' : Option Epoch} {d d' d'' : Int} (h : IsSpan τ ts f l d) (h' : IsSpan τ us f' l' d')
    (h'' : IsSpan τ (ts ++ us) f'' l'' d'') : f''.map τ = earlier τ f f' ∧ l''.map τ = later τ l l' := by
  rcases h with ⟨rfl, rfl, rfl, _⟩ | ⟨x, hx, y, hy, rfl, rfl, hb, _⟩ <;> rcases h' with ⟨rfl, rfl, rfl, _⟩ | ⟨x', hx', y', hy', rfl, rfl, hb', _⟩ <;>
    rcases h'' with ⟨e, rfl, rfl, _⟩ | ⟨x'', hx'', y'', hy'', rfl, rfl, hb'', _⟩
  · simp [earlier, later]
  · simp at hx''
  · simp at e; simp [e] at hx'
  · simp only [List.nil_append] at hx'' hy'' hb''
    have := hb' _ hx''; have := hb' _ hy''; have := hb'' _ hx'; have := hb'' _ hy'
    simp only [Option.map_some, earlier, later, Option.some.injEq]
    omega
  · simp at e; simp [e] at hx
  · simp only [List.append_nil] at hx'' hy'' hb''
    have := hb _ hx''; have := hb _ hy''; have := hb'' _ hx; have := hb'' _ hy
    simp only [Option.map_some, earlier, later, Option.some.injEq]
    omega
  · simp at e; simp [e] at hx
  · have a1 := hb'' x (by simp [hx]); have a2 := hb'' x' (by simp [hx']); have a3 := hb'' y (by simp [hy]); have a4 := hb'' y' (by simp [hy'])
    have a5 : (τ x ≤ τ x'' ∨ τ x' ≤ τ x'') := by
      rcases List.mem_append.1 hx'' with k | k
      · exact .inl (hb _ k).1
      · exact .inr (hb' _ k).1
    have a6 : (τ y'' ≤ τ y ∨ τ y'' ≤ τ y') := by
      rcases List.mem_append.1 hy'' with k | k
      · exact .inl (hb _ k).2
      · exact .inr (hb' _ k).2
    simp only [Option.map_some, earlier, later, Option.some.injEq]
    omega

theorem ofApid_shift (n : Nat) (qs : List Packet) (a : U16) : ofApid (qs.map (Packet.shift n)) a = (ofApid qs a).map (Packet.shift n) := by
  rw [ofApid, List.filter_map]
  rfl

theorem packetTimes_append (cds : Bool) (ps qs : List Packet) : packetTimes cds (ps ++ qs) = packetTimes cds ps ++ packetTimes cds qs := by
  unfold packetTimes
  split <;> simp

theorem packetTimes_shift (cds : Bool) (n : Nat) (qs : List Packet) : packetTimes cds (qs.map (Packet.shift n)) = packetTimes cds qs := by
  unfold packetTimes
  split
  · rw [List.filterMap_map]
    rfl
  · rfl

/-- C98: the report of `ccsds info` on two files one after the other: packets add up, in all and for each APID; the missing packets of an APID are those of each file and those
between the last packet of the first and the first packet of the second file; the times are the earliest and the latest of both. -/
theorem C98_info (b : Build) (τ : Epoch → Int) (cds : Bool) (A B : List U8) (rA rB r : Reader) (hA : rA.Delivers A) (hB : rB.Delivers B)
    (hr : r.Delivers (A ++ B)) (ps qs : List Packet) (hps : Decodes rA ps) (hwhole : wire ps = A) (hqs : Decodes rB qs) (i j k : Info.Info)
    (hi : Info.Runs b τ cds rA (some i)) (hj : Info.Runs b τ cds rB (some j)) (hk : Info.Runs b τ cds r (some k)) :
    k.summary.total = i.summary.total + j.summary.total ∧
    (∀ a, k.packetsOf a = i.packetsOf a + j.packetsOf a) ∧
    (∀ a, k.missingOf a = i.missingOf a + j.missingOf a + junction (seqIds (ofApid ps a)) (seqIds (ofApid qs a))) ∧
    k.summary.first.map τ = earlier τ i.summary.first j.summary.first ∧ k.summary.last.map τ = later τ i.summary.last j.summary.last := by
  obtain ⟨i', ri, ui⟩ := C56_info b τ cds A rA ps hA hps
  obtain ⟨j', rj, uj⟩ := C56_info b τ cds B rB qs hB hqs
  obtain ⟨k', rk, uk⟩ := C56_info b τ cds _ r _ hr (C98_decode A B rA rB r hA hB hr ps qs hps hwhole hqs)
  cases (ui _).1 hi
  cases (uj _).1 hj
  cases (uk _).1 hk
  have hof : ∀ a, ofApid (ps ++ qs.map (Packet.shift A.length)) a = ofApid ps a ++ (ofApid qs a).map (Packet.shift A.length) := by
    intro a
    rw [← ofApid_shift]
    simp [ofApid]
  refine ⟨by rw [rk.total, ri.total, rj.total]; simp, ?_, ?_, ?_⟩
  · intro a
    rw [(reports_packetsOf rk a).1, (reports_packetsOf ri a).1, (reports_packetsOf rj a).1, hof]
    simp
  · intro a
    rw [(reports_packetsOf rk a).2, (reports_packetsOf ri a).2, (reports_packetsOf rj a).2, hof, seqIds, List.map_append, List.map_map, gapSum_append]
    rfl
  · have := rk.span
    rw [packetTimes_append, packetTimes_shift] at this
    exact span_append ri.span rj.span this

/-! ## C99  Merging files that were put one after the other -/
section
open Merger
variable {Path : Type} [DecidableEq Path]

/-- Full statement: a file `p` that holds the files `q1` and `q2` one after the other (`q1` being whole packets) can be merged in their place. -/
def C99_full : Prop :=
  ∀ (b : Build) (τ : Epoch → Int) (m : Merger Nat) (files : Nat → Option MFile) (p q1 q2 : Nat) (others : List Nat) (f f1 f2 : MFile) (ps : List Packet)
    (out out' : List (List U8)), Readable files → m.paths = q1 :: q2 :: others → files p = some f → files q1 = some f1 → files q2 = some f2 →
    f.content = f1.content ++ f2.content → Decodes f1.reader ps → wire ps = f1.content →
    (∀ x y, Inputs b τ m files x → Inputs b τ m files y → x.key τ = y.key τ → x.bytes = y.bytes) →
    (∀ x y, Inputs b τ m files x → Inputs b τ m files y → τ x.time = τ y.time → rank m x.apid = rank m y.apid → x.key τ = y.key τ) →
    Merges b τ m files (.ok out) → Merges b τ { m with paths := p :: others } files (.ok out') → out'.flatten = out.flatten

/-- The last group of one file and the first of the next stay apart: the one is a single unsegmented packet, or their APIDs differ. -/
def StayApart (gs hs : List PacketGroup) : Prop :=
  ∀ g ∈ gs.getLast?, ∀ h ∈ hs.head?, (∃ p, g.packets = [p] ∧ p.header.sequenceFlags.toNat = 3) ∨ h.apid ≠ g.apid

theorem cut_append (ls ks : List (List Packet)) (hl : CutWhereApidChanges ls) (hk : CutWhereApidChanges ks)
    (hj : ∀ l ∈ ls.getLast?, ∀ k ∈ ks.head?, (∀ p ∈ l.head?, p.isStandalone = true) ∨ k.head?.map (·.header.apid) ≠ l.head?.map (·.header.apid)) :
    CutWhereApidChanges (ls ++ ks) := by
  induction ls with
  | nil => exact hk
  | cons l ls ih =>
    obtain ⟨⟨p, rest, e, h1, h2, h3⟩, h4⟩ := hl
    refine ⟨⟨p, rest, e, h1, h2, ?_⟩, ih h4 ?_⟩
    · intro hs k hkm
      cases ls with
      | cons l' ls => exact h3 hs k (by simpa using hkm)
      | nil =>
        rcases hj l (by simp) k (by simpa using hkm) with h | h
        · have := h p (by rw [e]; simp)
          rw [hs] at this
          cases this
        · rw [e] at h
          simpa using h
    · intro l' hl'
      cases ls with
      | nil => simp at hl'
      | cons x ls => exact hj l' (by simpa [List.getLast?_cons_cons] using hl')

/-- Groups of two files one after the other. -/
theorem fileGroups_concat {f f1 f2 : MFile} {ps : List Packet} {gs hs : List PacketGroup} (hf : f.reader.Delivers f.content) (hf1 : f1.reader.Delivers f1.content)
    (hf2 : f2.reader.Delivers f2.content) (hc : f.content = f1.content ++ f2.content) (hps : Decodes f1.reader ps) (hwhole : wire ps = f1.content)
    (hg : FileGroups f1 gs) (hh : FileGroups f2 hs) (ha : StayApart gs hs) :
    ∃ ks, FileGroups f ks ∧ ks.map (fun k => proj k.packets) = (gs ++ hs).map fun k => proj k.packets := by
  obtain ⟨ps', s1, s1', c1, c1'⟩ := hg
  obtain ⟨qs, s2, s2', c2, c2'⟩ := hh
  have : ps' = ps := by
    obtain ⟨s, hps⟩ := hps
    exact map_ok_inj (c1.unique hps).1
  subst this
  have hd := C98_decode _ _ f1.reader f2.reader f.reader hf1 hf2 (hc ▸ hf) ps' qs hps hwhole ⟨s2, c2⟩
  have k1 := (C12_exact ps' _).1 ⟨gs, s1', c1', rfl⟩
  have k2 := (C12_exact qs _).1 ⟨hs, s2', c2', rfl⟩
  obtain ⟨gs0, s0, q1, _, q3⟩ := C11_partition ps'
  obtain ⟨hs0, s0', r1, _, r3⟩ := C11_partition qs
  have e1 : gs0 = gs := map_ok_inj (q1.unique c1').1
  have e2 : hs0 = hs := map_ok_inj (r1.unique c2').1
  subst e1 e2
  have hcut : CutWhereApidChanges (gs0.map PacketGroup.packets ++ hs0.map PacketGroup.packets) := by
    refine cut_append _ _ k1.2 k2.2 ?_
    intro l hl k hk
    rw [List.getLast?_map] at hl
    rw [List.head?_map] at hk
    obtain ⟨g, hg, rfl⟩ := Option.map_eq_some_iff.1 hl
    obtain ⟨h, hh, rfl⟩ := Option.map_eq_some_iff.1 hk
    have hgm : g ∈ gs0 := List.mem_of_getLast? hg
    have hhm : h ∈ hs0 := List.mem_of_head? hh
    rcases ha g hg h hh with ⟨p, hp, h3⟩ | hne
    · left
      intro x hx
      rw [hp] at hx
      simp at hx
      subst hx
      simp [Packet.isStandalone]
      exact BitVec.eq_of_toNat_eq (by rw [h3]; rfl)
    · right
      intro e
      cases hgp : g.packets with
      | nil => exact absurd hgp (q3 g hgm).1
      | cons x xs =>
        rw [hgp] at e
        cases hhp : h.packets with
        | nil => rw [hhp] at e; simp at e
        | cons y ys =>
          rw [hhp] at e
          simp only [List.head?_cons, Option.map_some, Option.some.injEq] at e
          have a1 := (q3 g hgm).2 x (by rw [hgp]; simp)
          have a2 := (r3 h hhm).2 y (by rw [hhp]; simp)
          exact hne (by rw [← a1, ← a2, e])
  obtain ⟨ls, l1, l2⟩ := split_like (fun p : Packet => (p.header, p.data)) (gs0.map PacketGroup.packets ++ hs0.map PacketGroup.packets)
    (ps' ++ qs.map (Packet.shift f1.content.length)) (by
      rw [List.flatten_append, k1.1, k2.1]
      simp [Packet.shift])
  obtain ⟨ks, s3, d1, d2⟩ := (C12_exact _ ls).2 ⟨l1, cut_congr _ _ l2 hcut⟩
  obtain ⟨s, hd⟩ := hd
  refine ⟨ks, ⟨_, s, s3, hd, d1⟩, ?_⟩
  rw [← d2] at l2
  simpa [List.map_map, Function.comp_def, proj] using l2

/-- C99: it holds when the last group of the first file and the first group of the second stay apart. -/
theorem C99_partial (b : Build) (τ : Epoch → Int) (m : Merger Path) (files : Path → Option MFile) (p q1 q2 : Path) (others : List Path) (f f1 f2 : MFile) (ps : List Packet)
    (out out' : List (List U8)) (hfiles : Readable files) (hpaths : m.paths = q1 :: q2 :: others) (hf : files p = some f) (hf1 : files q1 = some f1)
    (hf2 : files q2 = some f2) (hc : f.content = f1.content ++ f2.content) (hps : Decodes f1.reader ps) (hwhole : wire ps = f1.content)
    (hcopy : ∀ x y, Inputs b τ m files x → Inputs b τ m files y → x.key τ = y.key τ → x.bytes = y.bytes)
    (hsep : ∀ x y, Inputs b τ m files x → Inputs b τ m files y → τ x.time = τ y.time → rank m x.apid = rank m y.apid → x.key τ = y.key τ)
    (gs hs : List PacketGroup) (hg : FileGroups f1 gs) (hh : FileGroups f2 hs) (ha : StayApart gs hs)
    (h : Merges b τ m files (.ok out)) (h' : Merges b τ { m with paths := p :: others } files (.ok out')) : out' = out := by
  obtain ⟨es, hm⟩ := C21_merge b τ m files hfiles out h
  obtain ⟨es', hm'⟩ := C21_merge b τ _ files hfiles out' h'
  obtain ⟨ks, hk, hproj⟩ := fileGroups_concat (hfiles _ _ hf) (hfiles _ _ hf1) (hfiles _ _ hf2) hc hps hwhole hg hh ha
  refine (isMerge_same (m := m) (m' := { m with paths := p :: others }) (fun _ => rfl) ?_ ?_ hcopy hsep out out' es es' hm hm').symm
  · rintro ⟨q, g, t⟩ ⟨hq, f0, gs0, a1, a2, a3, a4⟩
    simp only at hq a1 a3 a4
    rw [hpaths] at hq
    have key : g ∈ gs ++ hs → ∃ e', Inputs b τ { m with paths := p :: others } files e' ∧ e'.key τ = (⟨q, g, t⟩ : Entry Path).key τ := by
      intro hmem
      have := List.mem_map_of_mem (f := fun k : PacketGroup => proj k.packets) hmem
      rw [← hproj] at this
      obtain ⟨g', hg', e⟩ := List.mem_map.1 this
      exact ⟨⟨p, g', t⟩, ⟨by simp, f, ks, hf, hk, hg', eligible_congr e (fun _ _ h => h) a4⟩, (entry_congr τ p t e).1⟩
    rcases List.mem_cons.1 hq with rfl | hq
    · rw [hf1] at a1
      cases a1
      have := fileGroups_unique a2 hg
      subst this
      exact key (by simp [a3])
    rcases List.mem_cons.1 hq with rfl | hq
    · rw [hf2] at a1
      cases a1
      have := fileGroups_unique a2 hh
      subst this
      exact key (by simp [a3])
    · exact ⟨⟨q, g, t⟩, ⟨by simp [hq], f0, gs0, a1, a2, a3, a4⟩, rfl⟩
  · rintro ⟨q, g', t⟩ ⟨hq, f0, gs0, a1, a2, a3, a4⟩
    simp only at hq a1 a3 a4
    rcases List.mem_cons.1 hq with rfl | hq
    · rw [hf] at a1
      cases a1
      have := fileGroups_unique a2 hk
      subst this
      have := List.mem_map_of_mem (f := fun k : PacketGroup => proj k.packets) a3
      rw [hproj] at this
      obtain ⟨g, hgm, e⟩ := List.mem_map.1 this
      have he := eligible_congr (g := g') (g' := g) e (fun _ _ h => h) a4
      rcases List.mem_append.1 hgm with hgm | hgm
      · have := entry_congr τ q1 t (g := g) (g' := g') e.symm
        exact ⟨⟨q1, g, t⟩, ⟨by simp [hpaths], f1, gs, hf1, hg, hgm, he⟩, this.1, this.2⟩
      · have := entry_congr τ q2 t (g := g) (g' := g') e.symm
        exact ⟨⟨q2, g, t⟩, ⟨by simp [hpaths], f2, hs, hf2, hh, hgm, he⟩, this.1, this.2⟩
    · exact ⟨⟨q, g', t⟩, ⟨by simp [hpaths, hq], f0, gs0, a1, a2, a3, a4⟩, rfl, rfl⟩

/-! ### It does not hold in general

A segmented group of day 3 (file 1), then one of day 1 of the same APID (file 2); file 0 is both. -/
namespace CatEx
open FMEx
open MSEx (day grp dec)

def whole : List U8 := day 3#8 0#8 ++ day 1#8 2#8
def files : Nat → Option MFile
  | 0 => some (MergeEx.file whole)
  | 1 => some (MergeEx.file (day 3#8 0#8))
  | 2 => some (MergeEx.file (day 1#8 2#8))
  | _ => none
def merger : Merger Nat := Merger.new [1, 2] MergeEx.dec
def gBoth : PacketGroup := ⟨1#16, [pkt 3#8 1#8 0x40#8 0#8 0, pkt 3#8 1#8 0x80#8 1#8 14, pkt 1#8 1#8 0x40#8 2#8 28, pkt 1#8 1#8 0x80#8 3#8 42]⟩

theorem delivers (l : List U8) (hl : l ≠ []) : (MergeEx.file l).reader.Delivers (MergeEx.file l).content := by
  refine ⟨?_, by simp [evBytes, Ev.bytes, MergeEx.file, Reader.ofBytes], rfl⟩
  intro e he
  simp only [MergeEx.file, Reader.ofBytes, List.mem_cons, List.not_mem_nil, or_false] at he
  subst he
  exact .inl ⟨l, hl, rfl⟩

theorem readable : Readable files := by
  intro p f hf
  match p, hf with
  | 0, hf => cases hf; exact delivers _ (by decide)
  | 1, hf => cases hf; exact delivers _ (by decide)
  | 2, hf => cases hf; exact delivers _ (by decide)

theorem groups0 : FileGroups (MergeEx.file whole) [gBoth] :=
  ⟨gBoth.packets, _, _, .step rfl (.step rfl (.step rfl (.step rfl (.done rfl)))), .step rfl (.done rfl)⟩
theorem groups1 : FileGroups (MergeEx.file (day 3#8 0#8)) [grp 3#8 0#8 0] :=
  ⟨(grp 3#8 0#8 0).packets, _, _, .step rfl (.step rfl (.done rfl)), .step rfl (.done rfl)⟩
theorem groups2 : FileGroups (MergeEx.file (day 1#8 2#8)) [grp 1#8 2#8 0] :=
  ⟨(grp 1#8 2#8 0).packets, _, _, .step rfl (.step rfl (.done rfl)), .step rfl (.done rfl)⟩

def pLate : Ptr Nat := ⟨1, 0, 28, time 3, 1#16, 0#16, 1⟩
def pEarly : Ptr Nat := ⟨2, 0, 28, time 1, 1#16, 2#16, 1⟩
def pBoth : Ptr Nat := ⟨0, 0, 56, time 3, 1#16, 0#16, 1⟩

theorem mergesApart (b : Build) : Merges b MergeEx.tau merger files (.ok [day 1#8 2#8, day 3#8 0#8]) := by
  have hi : Index b MergeEx.tau merger files [1, 2] [] (some [pLate, pEarly]) :=
    .step rfl (MSEx.pointers_of groups1 (ps := [pLate]) (by cases b with | mk o => cases o <;> rfl)) (List.Perm.refl _) (List.Perm.refl _)
      (by
        rw [show Ptr.union MergeEx.tau [] [pLate] = [pLate] by rfl]
        exact .step rfl (MSEx.pointers_of groups2 (ps := [pEarly]) (by cases b with | mk o => cases o <;> rfl)) (List.Perm.refl _) (List.Perm.refl _)
          (by rw [show Ptr.union MergeEx.tau [pLate] [pEarly] = [pLate, pEarly] by rfl]; exact .done))
  have := Merges.finished (m := merger) (files := files) (by
      intro p hp
      simp [merger, Merger.new] at hp
      rcases hp with rfl | rfl <;> simp [files]) (List.Perm.refl _) hi (idx' := [pEarly, pLate]) (List.Perm.swap _ _ _)
  rwa [List.mergeSort_of_pairwise (by decide)] at this

theorem mergesJoined (b : Build) : Merges b MergeEx.tau { merger with paths := [0] } files (.ok [whole]) := by
  have hi : Index b MergeEx.tau { merger with paths := [0] } files [0] [] (some [pBoth]) :=
    .step rfl (MSEx.pointers_of groups0 (ps := [pBoth]) (by cases b with | mk o => cases o <;> rfl)) (List.Perm.refl _) (List.Perm.refl _)
      (by rw [show Ptr.union MergeEx.tau [] [pBoth] = [pBoth] by rfl]; exact .done)
  have := Merges.finished (m := { merger with paths := [0] }) (files := files) (by intro p hp; simp at hp; subst hp; simp [files]) (List.Perm.refl _) hi (List.Perm.refl _)
  rwa [List.mergeSort_of_pairwise (by decide)] at this

theorem inputs {b : Build} {e : Entry Nat} (h : Inputs b MergeEx.tau merger files e) : e = ⟨1, grp 3#8 0#8 0, time 3⟩ ∨ e = ⟨2, grp 1#8 2#8 0, time 1⟩ := by
  obtain ⟨p, g, t⟩ := e
  obtain ⟨hp, f, gs, hf, hgs, hg, he⟩ := h
  simp only at hp hf hg he
  have hp : p = 1 ∨ p = 2 := by simpa [merger, Merger.new] using hp
  obtain ⟨first, rest, ep, _, hd, _, _, _⟩ := he
  rcases hp with rfl | rfl
  · have : f = MergeEx.file (day 3#8 0#8) := (Option.some.inj (show some (MergeEx.file (day 3#8 0#8)) = some f from hf)).symm
    subst this
    have := fileGroups_unique hgs groups1
    subst this
    simp only [List.mem_cons, List.not_mem_nil, or_false] at hg
    subst hg
    have e1 : pkt 3#8 1#8 0x40#8 0#8 0 = first := (List.cons.inj ep).1
    subst e1
    have := (dec b 3#8 0#8 0x40#8 3 0 (by simp)).symm.trans hd
    simp only [Outcome.ret.injEq, Except.ok.injEq] at this
    exact .inl (by rw [this])
  · have : f = MergeEx.file (day 1#8 2#8) := (Option.some.inj (show some (MergeEx.file (day 1#8 2#8)) = some f from hf)).symm
    subst this
    have := fileGroups_unique hgs groups2
    subst this
    simp only [List.mem_cons, List.not_mem_nil, or_false] at hg
    subst hg
    have e1 : pkt 1#8 1#8 0x40#8 2#8 0 = first := (List.cons.inj ep).1
    subst e1
    have := (dec b 1#8 2#8 0x40#8 1 0 (by simp)).symm.trans hd
    simp only [Outcome.ret.injEq, Except.ok.injEq] at this
    exact .inr (by rw [this])

theorem decodes : Decodes (MergeEx.file (day 3#8 0#8)).reader (grp 3#8 0#8 0).packets := ⟨_, .step rfl (.step rfl (.done rfl))⟩
theorem decodes' : Decodes (MergeEx.file (day 1#8 2#8)).reader (grp 1#8 2#8 0).packets := ⟨_, .step rfl (.step rfl (.done rfl))⟩

/-- C98 on these files. -/
example : Decodes (MergeEx.file whole).reader ((grp 3#8 0#8 0).packets ++ (grp 1#8 2#8 0).packets.map (Packet.shift 28)) :=
  C98_decode (day 3#8 0#8) (day 1#8 2#8) _ _ _ (delivers _ (by decide)) (delivers _ (by decide)) (delivers _ (by decide)) _ _ decodes (by decide) decodes'

/-- C98: sequence ids 0, 1 and 2, 3: nothing is missing between the files. -/
example : junction (seqIds (ofApid (grp 3#8 0#8 0).packets 1#16)) (seqIds (ofApid (grp 1#8 2#8 0).packets 1#16)) = 0 := by decide

/-- The hypothesis of `C99_partial` that is not in `C99_full`: an unsegmented packet at the end of the first file, or another APID at the beginning of the second. -/
example : StayApart [grp 3#8 0#8 0] [FMEx.gOther] ∧ StayApart [FMEx.gOther] [grp 3#8 0#8 0] :=
  ⟨by intro g hg h hh; simp at hg hh; subst hg hh; exact .inr (by decide), by intro g hg h hh; simp at hg hh; subst hg hh; exact .inr (by decide)⟩

end CatEx

/-- The two groups become one, and the packets of day 1 are written after those of day 3. -/
theorem C99_violated : ¬ C99_full := by
  intro h
  have := h ⟨true⟩ MergeEx.tau CatEx.merger CatEx.files 0 1 2 [] _ _ _ _ _ _ CatEx.readable rfl rfl rfl rfl rfl CatEx.decodes (by decide)
    (by
      intro x y hx hy hk
      rcases CatEx.inputs hx with rfl | rfl <;> rcases CatEx.inputs hy with rfl | rfl <;> first | rfl | exact absurd hk (by decide))
    (by
      intro x y hx hy ht _
      rcases CatEx.inputs hx with rfl | rfl <;> rcases CatEx.inputs hy with rfl | rfl <;> first | rfl | exact absurd ht (by decide))
    (CatEx.mergesApart _) (CatEx.mergesJoined _)
  exact absurd this (by decide)

end

end Ccsds
