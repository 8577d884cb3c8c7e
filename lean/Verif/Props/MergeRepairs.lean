import Verif.Props.LateCounts
import Verif.Props.MergeCheck
import Verif.Props.DataErrors
/-!
# C142: what `info` says after merging
-/
namespace Ccsds
open Spec Merger

/-! ## Specification -/

variable {Path : Type} [DecidableEq Path]

/-- The packets of APID `a` among the inputs to be merged are unsegmented and are numbered by `num`: their sequence ids are the numbers modulo 16384, and later numbers have later times. -/
structure NumberedInputs (b : Build) (τ : Epoch → Int) (m : Merger Path) (files : Path → Option MFile) (a : U16) (num : Entry Path → Nat) : Prop where
  single : ∀ e, Inputs b τ m files e → e.apid = a → ∃ p, e.group.packets = [p] ∧ p.header.sequenceId.toNat = num e % 16384
  times : ∀ x y, Inputs b τ m files x → Inputs b τ m files y → x.apid = a → y.apid = a → (num x < num y ↔ τ x.time < τ y.time)

/-! ## Proof -/

theorem seqIds_ofApid_proj (a : U16) {ps qs : List Packet} (h : proj ps = proj qs) : seqIds (ofApid ps a) = seqIds (ofApid qs a) := by
  have key : ∀ l : List Packet, seqIds (ofApid l a) = ((proj l).filter (fun x => x.1.apid == a)).map fun x => x.1.sequenceId.toNat := by
    intro l
    unfold proj seqIds ofApid
    rw [List.filter_map, List.map_map]
    rfl
  rw [key, key, h]

theorem received_of_dense {n : Nat} : ∀ l : List Nat, l.Pairwise (· < ·) → (∀ x ∈ l, ∀ y ∈ l, x < y → ∃ z ∈ l, x < z ∧ z ≤ x + n) → Received n l := by
  intro l
  induction l with
  | nil => intro _ _; trivial
  | cons a l ih =>
    intro hs hd
    have h1 := List.pairwise_cons.1 hs
    have ht : Received n l := by
      refine ih h1.2 fun x hx y hy hxy => ?_
      obtain ⟨z, hz, z1, z2⟩ := hd x (by simp [hx]) y (by simp [hy]) hxy
      rcases List.mem_cons.1 hz with rfl | hz
      · have := h1.1 x hx; omega
      · exact ⟨z, hz, z1, z2⟩
    cases l with
    | nil => trivial
    | cons c l =>
      have hac := h1.1 c (by simp)
      obtain ⟨z, hz, z1, z2⟩ := hd a (by simp) c (by simp) hac
      have hcz : c ≤ z := by
        rcases List.mem_cons.1 hz with rfl | hz
        · omega
        · rcases List.mem_cons.1 hz with rfl | hz
          · exact Nat.le_refl _
          · exact Nat.le_of_lt ((List.pairwise_cons.1 h1.2).1 z hz)
      exact ⟨hac, by omega, ht⟩

theorem nearby_of_received {n : Nat} (_hn : 0 < n) : ∀ l : List Nat, Received n l → Nearby n l ∧ setbacks l = 0 := by
  intro l
  induction l with
  | nil => intro _; exact ⟨trivial, rfl⟩
  | cons a l ih =>
    intro h
    cases l with
    | nil => exact ⟨trivial, rfl⟩
    | cons c l =>
      obtain ⟨h1, h2, h3⟩ := h
      obtain ⟨i1, i2⟩ := ih h3
      refine ⟨⟨h2, by omega, i1⟩, ?_⟩
      unfold setbacks
      rw [i2, if_neg (by omega)]

omit [DecidableEq Path] in
theorem inputs_apid {b : Build} {τ : Epoch → Int} {m : Merger Path} {files : Path → Option MFile} {e : Entry Path} (h : Inputs b τ m files e) : ∀ p ∈ e.group.packets, p.header.apid = e.apid := by
  obtain ⟨_, f, gs, _, ⟨ps, s, s', _, c2⟩, hg, _⟩ := h
  have hall := (groups_apid ⟨s', c2⟩ e.group hg).2
  intro p hp
  unfold Entry.apid
  cases hq : e.group.packets with
  | nil => rw [hq] at hp; cases hp
  | cons q rest => exact (hall p hp).trans (hall q (by rw [hq]; simp)).symm

omit [DecidableEq Path] in
theorem merged_ids {b : Build} {τ : Epoch → Int} {m : Merger Path} {files : Path → Option MFile} {a : U16} {num : Entry Path → Nat} (hn : NumberedInputs b τ m files a num) :
    ∀ es : List (Entry Path), (∀ e ∈ es, Inputs b τ m files e) →
      seqIds (ofApid (es.flatMap fun e => e.group.packets) a) = ((es.filter fun e => e.apid == a).map num).map (· % 16384) := by
  intro es
  induction es with
  | nil => intro _; rfl
  | cons e es ih =>
    intro hi
    have he := hi e (by simp)
    have hrest := ih fun x hx => hi x (by simp [hx])
    unfold ofApid seqIds at hrest ⊢
    rw [List.flatMap_cons, List.filter_append, List.map_append, hrest, List.filter_cons]
    by_cases h : e.apid = a
    · obtain ⟨p, hp, hs⟩ := hn.single e he h
      have hap := inputs_apid he p (by rw [hp]; simp)
      rw [hp, List.filter_cons, if_pos (by rw [hap, h]; simp), if_pos (by simp [h])]
      simp [hs]
    · have : e.group.packets.filter (fun p => p.header.apid == a) = [] := by
        rw [List.filter_eq_nil_iff]
        intro p hp
        rw [inputs_apid he p hp]
        simpa using h
      rw [this, if_neg (by simpa using h)]
      rfl

/-- C142: after merging, `info` counts every packet of an APID once, however often and in whatever order the packets are in the inputs, and reports as missing exactly the numbers between the
first and the last one that are in none of them (unless 16384 or more in a row are). -/
theorem C142_info (b : Build) (τ : Epoch → Int) (cds : Bool) (m : Merger Path) (files : Path → Option MFile) (hfiles : Readable files) (out : List (List U8))
    (h : Merges b τ m files (.ok out)) (r : Reader) (hd : r.Delivers out.flatten) (a : U16) (num : Entry Path → Nat) (hn : NumberedInputs b τ m files a num)
    (hany : ∃ e, Inputs b τ m files e ∧ e.apid = a)
    (hgap : ∀ x y, Inputs b τ m files x → Inputs b τ m files y → x.apid = a → y.apid = a → num x < num y →
      ∃ z, Inputs b τ m files z ∧ z.apid = a ∧ num x < num z ∧ num z ≤ num x + 16384) :
    ∃ ks : List Nat, ks.Pairwise (· < ·) ∧ (∀ k, k ∈ ks ↔ ∃ e, Inputs b τ m files e ∧ e.apid = a ∧ num e = k) ∧
      ∃ i s, (∀ res, Info.Runs b τ cds r res ↔ res = some i) ∧ (∀ s', (a, s') ∈ i.apids ↔ s' = s) ∧ s.total = ks.length ∧ s.missing = lost ks := by
  obtain ⟨es, hm⟩ := C21_merge b τ m files hfiles out h
  obtain ⟨qs, hqs, hproj⟩ := isMerge_decodes hfiles hm hd
  have hids : seqIds (ofApid qs a) = ((es.filter fun e => e.apid == a).map num).map (· % 16384) := by
    rw [seqIds_ofApid_proj a hproj, merged_ids hn es hm.inputs]
  have hkey : ∀ x y, Inputs b τ m files x → Inputs b τ m files y → x.apid = a → y.apid = a → num x = num y → x.key τ = y.key τ := by
    intro x y hx hy ax ay hxy
    obtain ⟨p, hp, hps⟩ := hn.single x hx ax
    obtain ⟨q, hq, hqs⟩ := hn.single y hy ay
    have ht : τ x.time = τ y.time := by
      have t1 := hn.times x y hx hy ax ay
      have t2 := hn.times y x hy hx ay ax
      have n1 : ¬ τ x.time < τ y.time := fun h => by have := t1.2 h; omega
      have n2 : ¬ τ y.time < τ x.time := fun h => by have := t2.2 h; omega
      omega
    have hap : p.header.apid = q.header.apid := by
      rw [inputs_apid hx p (by rw [hp]; simp), inputs_apid hy q (by rw [hq]; simp), ax, ay]
    have hsq : p.header.sequenceId = q.header.sequenceId := BitVec.eq_of_toNat_eq (by rw [hps, hqs, hxy])
    unfold Entry.key
    rw [hp, hq, ht]
    simp only [List.head?_cons, Option.map_some, hap, hsq]
  have hmem : ∀ k, k ∈ (es.filter fun e => e.apid == a).map num ↔ ∃ e, Inputs b τ m files e ∧ e.apid = a ∧ num e = k := by
    intro k
    constructor
    · intro hk
      obtain ⟨e, he, rfl⟩ := List.mem_map.1 hk
      have := List.mem_filter.1 he
      exact ⟨e, hm.inputs e this.1, by simpa using this.2, rfl⟩
    · rintro ⟨e, he, hea, rfl⟩
      obtain ⟨x, hx, hxe⟩ := List.mem_map.1 (hm.complete e he)
      have hxi := hm.inputs x hx
      obtain ⟨p, hp, hps⟩ := hn.single e he hea
      have hxa : x.apid = a := by
        unfold Entry.key at hxe
        rw [hp] at hxe
        cases hq : x.group.packets with
        | nil => rw [hq] at hxe; simp at hxe
        | cons q rest =>
          rw [hq] at hxe
          simp only [List.head?_cons, Option.map_some, Prod.mk.injEq, Option.some.injEq] at hxe
          have h1 := inputs_apid hxi q (by rw [hq]; simp)
          have h2 := inputs_apid he p (by rw [hp]; simp)
          rw [← h1, hxe.1.1, h2, hea]
      have ht : τ x.time = τ e.time := congrArg Prod.snd hxe
      have t1 := hn.times x e hxi he hxa hea
      have t2 := hn.times e x he hxi hea hxa
      have hnum : num x = num e := by
        have n1 : ¬ num x < num e := fun h => by have := t1.1 h; omega
        have n2 : ¬ num e < num x := fun h => by have := t2.1 h; omega
        omega
      rw [← hnum]
      exact List.mem_map_of_mem (List.mem_filter.2 ⟨hx, by simp [hxa]⟩)
  have hsorted : ((es.filter fun e => e.apid == a).map num).Pairwise (· < ·) := by
    rw [List.pairwise_map]
    have hp1 := hm.sorted.filter (fun e => e.apid == a)
    have hp2 : es.Pairwise fun x y => x.key τ ≠ y.key τ := by
      have := hm.distinct
      unfold List.Nodup at this
      rwa [List.pairwise_map] at this
    refine List.Pairwise.imp_of_mem ?_ (hp1.and (hp2.filter (fun e => e.apid == a)))
    intro x y hx hy hxy
    have hx' := List.mem_filter.1 hx
    have hy' := List.mem_filter.1 hy
    have ax : x.apid = a := by simpa using hx'.2
    have ay : y.apid = a := by simpa using hy'.2
    have hxi := hm.inputs x hx'.1
    have hyi := hm.inputs y hy'.1
    rcases Nat.lt_trichotomy (num x) (num y) with h | h | h
    · exact h
    · exact absurd (hkey x y hxi hyi ax ay h) hxy.2
    · have := (hn.times y x hyi hxi ay ax).1 h
      rcases hxy.1 with h' | ⟨h', _⟩ <;> omega
  have hrec : Received 16384 ((es.filter fun e => e.apid == a).map num) := by
    refine received_of_dense _ hsorted fun x hx y hy hxy => ?_
    obtain ⟨e, he, hea, rfl⟩ := (hmem x).1 hx
    obtain ⟨f, hf, hfa, rfl⟩ := (hmem y).1 hy
    obtain ⟨z, hz, hza, z1, z2⟩ := hgap e f he hf hea hfa hxy
    exact ⟨num z, (hmem _).2 ⟨z, hz, hza, rfl⟩, z1, z2⟩
  refine ⟨_, hsorted, hmem, ?_⟩
  generalize (es.filter fun e => e.apid == a).map num = l at *
  cases l with
  | nil =>
    obtain ⟨e, he, hea⟩ := hany
    exact absurd ((hmem _).2 ⟨e, he, hea, rfl⟩) (by simp)
  | cons k ks =>
    obtain ⟨n1, n2⟩ := nearby_of_received (by decide) _ hrec
    obtain ⟨i, s, hu, hs, ht, _⟩ := (C141_exact b τ cds _ r qs hd hqs a k ks hids n1).2
    exact ⟨i, s, hu, hs, ht, C141_partial b τ cds _ r qs a k ks hd hqs hids n1 n2 i ((hu _).2 rfl) s ((hs s).2 rfl)⟩

/-! ## A concrete case

Numbers 1 and 3 in one file; 3, 1 and 1 again in the other: after merging `info` counts two packets and reports one missing. -/
namespace RepairsEx
open AgreeEx FMEx MergeCheckEx

def p1 (off : Nat) : Packet := pkt 1#8 2#8 0xc0#8 1#8 off
def p3 (off : Nat) : Packet := pkt 3#8 2#8 0xc0#8 3#8 off
def g1 (off : Nat) : PacketGroup := ⟨2#16, [p1 off]⟩
def g3 (off : Nat) : PacketGroup := ⟨2#16, [p3 off]⟩
def b1 : List U8 := bytes 1#8 2#8 0xc0#8 1#8
def b3 : List U8 := bytes 3#8 2#8 0xc0#8 3#8

def files : Nat → Option MFile
  | 0 => some (MergeEx.file (b1 ++ b3))
  | 1 => some (MergeEx.file (b3 ++ b1 ++ b1))
  | _ => none
def merger : Merger Nat := mergerOf [0, 1]

theorem readable : Readable files := by
  intro p f hf
  match p, hf with
  | 0, hf => cases hf; exact FuseEx.delivers (by decide)
  | 1, hf => cases hf; exact FuseEx.delivers (by decide)

theorem groups0 : FileGroups (MergeEx.file (b1 ++ b3)) [g1 0, g3 14] :=
  ⟨[p1 0, p3 14], _, _, .step rfl (.step rfl (.done rfl)), .step rfl (.step rfl (.done rfl))⟩
theorem groups1 : FileGroups (MergeEx.file (b3 ++ b1 ++ b1)) [g3 0, g1 14, g1 28] :=
  ⟨[p3 0, p1 14, p1 28], _, _, .step rfl (.step rfl (.step rfl (.done rfl))), .step rfl (.step rfl (.step rfl (.done rfl)))⟩

theorem dec1 (b : Build) (off : Nat) : MergeEx.dec.decode b (p1 off) = .ret (.ok (time 1)) := by
  have h1 : MergeEx.dec.decode b (p1 off) = Timecode.decode b (.cds 2 2) [1#8, 0#8, 0#8, 0#8, 0#8, 0#8, 0#8, 0#8] := rfl
  rw [h1]
  cases b with | mk o => cases o <;> decide
theorem dec3 (b : Build) (off : Nat) : MergeEx.dec.decode b (p3 off) = .ret (.ok (time 3)) := by
  have h1 : MergeEx.dec.decode b (p3 off) = Timecode.decode b (.cds 2 2) [3#8, 0#8, 0#8, 0#8, 0#8, 0#8, 0#8, 0#8] := rfl
  rw [h1]
  cases b with | mk o => cases o <;> decide
theorem since3 : MergeEx.tau MergeEx.merger.fromEpoch ≤ MergeEx.tau (time 3) := by decide
theorem before3 : MergeEx.tau (time 3) < MergeEx.tau MergeEx.merger.toEpoch := by decide

theorem is1 (b : Build) : Inputs b MergeEx.tau merger files ⟨0, g1 0, time 1⟩ :=
  ⟨by simp [merger, mergerOf], _, _, rfl, groups0, by simp, _, _, rfl, .inr (by rfl), dec1 b 0, since1, before1, .inl rfl⟩
theorem is3 (b : Build) : Inputs b MergeEx.tau merger files ⟨0, g3 14, time 3⟩ :=
  ⟨by simp [merger, mergerOf], _, _, rfl, groups0, by simp, _, _, rfl, .inr (by rfl), dec3 b 14, since3, before3, .inl rfl⟩

theorem inputs {b : Build} {e : Entry Nat} (h : Inputs b MergeEx.tau merger files e) :
    (∃ off, e.group = g1 off ∧ e.time = time 1) ∨ (∃ off, e.group = g3 off ∧ e.time = time 3) := by
  obtain ⟨p, g, t⟩ := e
  obtain ⟨hp, f, gs, hf, hgs, hg, he⟩ := h
  simp only at hp hf hg he ⊢
  have hall : (∃ off, g = g1 off) ∨ (∃ off, g = g3 off) := by
    have hp : p = 0 ∨ p = 1 := by simpa [merger, mergerOf] using hp
    rcases hp with rfl | rfl
    · cases hf
      obtain rfl := Merger.fileGroups_unique hgs groups0
      simp only [List.mem_cons, List.not_mem_nil, or_false] at hg
      rcases hg with rfl | rfl
      · exact .inl ⟨_, rfl⟩
      · exact .inr ⟨_, rfl⟩
    · cases hf
      obtain rfl := Merger.fileGroups_unique hgs groups1
      simp only [List.mem_cons, List.not_mem_nil, or_false] at hg
      rcases hg with rfl | rfl | rfl
      · exact .inr ⟨_, rfl⟩
      · exact .inl ⟨_, rfl⟩
      · exact .inl ⟨_, rfl⟩
  obtain ⟨fp, rest, ep, _, hd, _⟩ := he
  rcases hall with ⟨off, rfl⟩ | ⟨off, rfl⟩
  · have e1 : p1 off = fp := (List.cons.inj ep).1
    subst e1
    have := (dec1 b off).symm.trans hd
    simp only [Outcome.ret.injEq, Except.ok.injEq] at this
    exact .inl ⟨off, rfl, this.symm⟩
  · have e1 : p3 off = fp := (List.cons.inj ep).1
    subst e1
    have := (dec3 b off).symm.trans hd
    simp only [Outcome.ret.injEq, Except.ok.injEq] at this
    exact .inr ⟨off, rfl, this.symm⟩

/-- The number of a packet: its sequence id. -/
def num (e : Entry Nat) : Nat := (e.group.packets.head?.map fun p => p.header.sequenceId.toNat).getD 0

theorem num1 {e : Entry Nat} {off : Nat} (h : e.group = g1 off) : num e = 1 := by unfold num; rw [h]; rfl
theorem num3 {e : Entry Nat} {off : Nat} (h : e.group = g3 off) : num e = 3 := by unfold num; rw [h]; rfl
theorem tau13 : MergeEx.tau (time 1) < MergeEx.tau (time 3) := by decide

theorem numbered (b : Build) : NumberedInputs b MergeEx.tau merger files 2#16 num where
  single := by
    intro e he _
    rcases inputs he with ⟨off, h, _⟩ | ⟨off, h, _⟩
    · exact ⟨p1 off, by rw [h]; rfl, by rw [num1 h]; rfl⟩
    · exact ⟨p3 off, by rw [h]; rfl, by rw [num3 h]; rfl⟩
  times := by
    intro x y hx hy _ _
    have := tau13
    rcases inputs hx with ⟨o, h, t⟩ | ⟨o, h, t⟩ <;> rcases inputs hy with ⟨o', h', t'⟩ | ⟨o', h', t'⟩
    · rw [num1 h, num1 h', t, t']; omega
    · rw [num1 h, num3 h', t, t']; omega
    · rw [num3 h, num1 h', t, t']; omega
    · rw [num3 h, num3 h', t, t']; omega

/-- One missing packet is reported, although the second file has a packet twice and in the wrong order. -/
theorem C142_missing (b : Build) (cds : Bool) (out : List (List U8)) (h : Merges b MergeEx.tau merger files (.ok out)) (r : Reader) (hd : r.Delivers out.flatten) :
    ∃ i s, (∀ res, Info.Runs b MergeEx.tau cds r res ↔ res = some i) ∧ (∀ s', (2#16, s') ∈ i.apids ↔ s' = s) ∧ s.total = 2 ∧ s.missing = 1 := by
  obtain ⟨ks, h1, h2, i, s, h3, h4, h5, h6⟩ := C142_info b MergeEx.tau cds merger files readable out h r hd 2#16 num (numbered b) ⟨_, is1 b, rfl⟩ (by
    intro x y hx hy _ _ hxy
    rcases inputs hx with ⟨o, h, t⟩ | ⟨o, h, t⟩
    · exact ⟨_, is3 b, rfl, by rw [num1 h]; decide, by rw [num1 h]; decide⟩
    · rw [num3 h] at hxy
      rcases inputs hy with ⟨o', h', _⟩ | ⟨o', h', _⟩
      · rw [num1 h'] at hxy; omega
      · rw [num3 h'] at hxy; omega)
  have hk : ∀ k, k ∈ ks ↔ k = 1 ∨ k = 3 := by
    intro k
    rw [h2]
    constructor
    · rintro ⟨e, he, _, rfl⟩
      rcases inputs he with ⟨o, h, _⟩ | ⟨o, h, _⟩
      · exact .inl (num1 h)
      · exact .inr (num3 h)
    · rintro (rfl | rfl)
      · exact ⟨_, is1 b, rfl, rfl⟩
      · exact ⟨_, is3 b, rfl, rfl⟩
  have hks : ks = [1, 3] := by
    match ks, h1, hk with
    | [], _, hk => exact absurd ((hk 1).2 (.inl rfl)) (by simp)
    | [x], _, hk =>
      have e1 := (hk 1).2 (.inl rfl)
      have e3 := (hk 3).2 (.inr rfl)
      simp only [List.mem_singleton] at e1 e3
      omega
    | [x, y], h1, hk =>
      have e1 := (hk x).1 (by simp)
      have e3 := (hk y).1 (by simp)
      have : x < y := (List.pairwise_cons.1 h1).1 y (by simp)
      have : x = 1 ∧ y = 3 := by omega
      rw [this.1, this.2]
    | x :: y :: z :: l, h1, hk =>
      have e1 := (hk x).1 (by simp)
      have e2 := (hk y).1 (by simp)
      have e3 := (hk z).1 (by simp)
      have l1 : x < y := (List.pairwise_cons.1 h1).1 y (by simp)
      have l2 : y < z := (List.pairwise_cons.1 (List.pairwise_cons.1 h1).2).1 z (by simp)
      omega
  subst hks
  exact ⟨i, s, h3, h4, h5, h6⟩

theorem noPanic (b : Build) : ∀ p ∈ merger.paths, ∃ f, files p = some f ∧ ¬ FilePanics b merger.timeDecoder f := by
  have key : ∀ f gs, FileGroups f gs → (∀ g ∈ gs, (∃ off, g = g1 off) ∨ (∃ off, g = g3 off)) → ¬ FilePanics b merger.timeDecoder f := by
    rintro f gs hgs hall (⟨items, hc⟩ | ⟨gs', g, first, r, h1, h2, h3, _, h5⟩)
    · obtain ⟨ps, s, s', c1, _⟩ := hgs
      have := (c1.unique hc).2
      cases this
    · obtain rfl := Merger.fileGroups_unique h1 hgs
      rcases hall g h2 with ⟨off, rfl⟩ | ⟨off, rfl⟩
      · have e1 : p1 off = first := (List.cons.inj h3).1
        subst e1
        have := (dec1 b off).symm.trans h5
        cases this
      · have e1 : p3 off = first := (List.cons.inj h3).1
        subst e1
        have := (dec3 b off).symm.trans h5
        cases this
  intro p hp
  have hp : p = 0 ∨ p = 1 := by simpa [merger, mergerOf] using hp
  rcases hp with rfl | rfl
  · refine ⟨_, rfl, key _ _ groups0 fun g hg => ?_⟩
    simp only [List.mem_cons, List.not_mem_nil, or_false] at hg
    rcases hg with rfl | rfl
    · exact .inl ⟨_, rfl⟩
    · exact .inr ⟨_, rfl⟩
  · refine ⟨_, rfl, key _ _ groups1 fun g hg => ?_⟩
    simp only [List.mem_cons, List.not_mem_nil, or_false] at hg
    rcases hg with rfl | rfl | rfl
    · exact .inr ⟨_, rfl⟩
    · exact .inl ⟨_, rfl⟩
    · exact .inl ⟨_, rfl⟩

/-- The merge does come to its end. -/
example (b : Build) : ∃ out, Merges b MergeEx.tau merger files (.ok out) := (C21_total b MergeEx.tau merger files readable (noPanic b)).1

end RepairsEx
end Ccsds
