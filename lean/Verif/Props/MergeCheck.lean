import Verif.Props.Agreement
import Verif.Props.Volume
import Verif.Props.MergeParts
/-!
# C137: what `info` and `diff` say about a merged file
-/
namespace Ccsds
open Spec Merger

/-- The number of packets whose header and bytes satisfy `P`. -/
def countOf (P : PrimaryHeader → List U8 → Bool) (ps : List Packet) : Nat := ps.countP fun p => P p.header p.data

theorem countOf_proj (P : PrimaryHeader → List U8 → Bool) {ps qs : List Packet} (h : proj ps = proj qs) : countOf P ps = countOf P qs := by
  have key : ∀ l : List Packet, countOf P l = (proj l).countP fun x => P x.1 x.2 := by
    intro l
    unfold countOf proj
    rw [List.countP_map]; rfl
  rw [key, key, h]

theorem countOf_append (P : PrimaryHeader → List U8 → Bool) (ps qs : List Packet) : countOf P (ps ++ qs) = countOf P ps + countOf P qs := List.countP_append

theorem countOf_flatMap {α : Type} (P : PrimaryHeader → List U8 → Bool) (f : α → List Packet) (l : List α) : countOf P (l.flatMap f) = (l.map fun x => countOf P (f x)).sum := by
  induction l with
  | nil => rfl
  | cons x l ih => rw [List.flatMap_cons, countOf_append, ih, List.map_cons, List.sum_cons]

/-- A sum over elements with different keys, each of which has a counterpart of the same key and weight. -/
theorem sum_counterparts {α κ : Type} (key : α → κ) (w : α → Nat) (l : List α) : ∀ es : List α, (l.map key).Nodup → (∀ x ∈ l, ∃ y ∈ es, key y = key x ∧ w y = w x) →
    (l.map w).sum ≤ (es.map w).sum := by
  induction l with
  | nil => intro es _ _; simp
  | cons x l ih =>
    intro es hn h
    rw [List.map_cons, List.nodup_cons] at hn
    obtain ⟨y, hy, hk, hw⟩ := h x (by simp)
    obtain ⟨s, t, rfl⟩ := List.append_of_mem hy
    have h2 := ih (s ++ t) hn.2 (by
      intro z hz
      obtain ⟨v, hv, hkv, hwv⟩ := h z (by simp [hz])
      refine ⟨v, ?_, hkv, hwv⟩
      rcases List.mem_append.1 hv with hv | hv
      · simp [hv]
      · rcases List.mem_cons.1 hv with rfl | hv
        · exact absurd (List.mem_map.2 ⟨z, hz, hkv.symm.trans hk⟩) hn.1
        · simp [hv])
    simp only [List.map_append, List.sum_append, List.map_cons, List.sum_cons] at h2 ⊢
    omega

theorem inj_of_nodup {α κ : Type} {key : α → κ} {l : List α} (hn : (l.map key).Nodup) {x y : α} (hx : x ∈ l) (hy : y ∈ l) (h : key x = key y) : x = y := by
  induction l with
  | nil => cases hx
  | cons z l ih =>
    rw [List.map_cons, List.nodup_cons] at hn
    rcases List.mem_cons.1 hx with e | h1
    · rcases List.mem_cons.1 hy with e' | h2
      · rw [e, e']
      · exact absurd (List.mem_map.2 ⟨y, h2, by rw [← h, e]⟩) hn.1
    · rcases List.mem_cons.1 hy with e' | h2
      · exact absurd (List.mem_map.2 ⟨x, h1, by rw [h, e']⟩) hn.1
      · exact ih hn.2 h1 h2

section Merging
variable {Path : Type} [DecidableEq Path]

/-- `own` are the groups of the input file `p`, all of them to be merged, and no two of them take each other's place. -/
structure WhollyMerged (b : Build) (τ : Epoch → Int) (m : Merger Path) (files : Path → Option MFile) (p : Path) (f : MFile) (own : List (Entry Path)) : Prop where
  inputs : ∀ e ∈ own, Inputs b τ m files e
  groups : FileGroups f (own.map Entry.group)
  paths : ∀ e ∈ own, e.path = p
  distinct : (own.map (Entry.key τ)).Nodup

omit [DecidableEq Path] in
theorem fileGroups_packets {f : MFile} {gs : List PacketGroup} (h : FileGroups f gs) {ps : List Packet} (hps : Decodes f.reader ps) : ps = gs.flatMap PacketGroup.packets := by
  obtain ⟨ps', s, s', c1, c2⟩ := h
  obtain ⟨t, c3⟩ := hps
  obtain rfl := map_ok_inj (c1.unique c3).1
  obtain ⟨hs, h1, h2, _⟩ := Merger.collects_groups c2
  have hh := map_ok_inj h1
  subst hh
  exact h2.symm

omit [DecidableEq Path] in
/-- The packets taken from one file are some of the packets of the file. -/
theorem one_file_count (P : PrimaryHeader → List U8 → Bool) {b : Build} {τ : Epoch → Int} {m : Merger Path} {files : Path → Option MFile} (p : Path) (pk : List Packet)
    (hpk : ∀ f, files p = some f → Decodes f.reader pk) (es : List (Entry Path))
    (hi : ∀ e ∈ es, Inputs b τ m files e ∧ e.path = p) (hn : (es.map (Entry.key τ)).Nodup) :
    (es.map fun e => countOf P e.group.packets).sum ≤ countOf P pk := by
  cases es with
  | nil => simp
  | cons e0 es0 =>
    generalize hes : e0 :: es0 = es at hi hn
    obtain ⟨⟨_, f, gs, hf, hg, _, _⟩, hp⟩ := hi e0 (by rw [← hes]; simp)
    rw [hp] at hf
    have hmem : ∀ e ∈ es, e.group ∈ gs := by
      intro e he
      obtain ⟨⟨_, f', gs', hf', hg', hm', _⟩, hp'⟩ := hi e he
      rw [hp', hf] at hf'
      cases hf'
      rwa [Merger.fileGroups_unique hg hg']
    have hng : (es.map Entry.group).Nodup := by
      refine nodup_transfer _ _ _ hn ?_
      intro x hx y hy hxy
      obtain ⟨⟨_, _, _, _, _, _, hex⟩, _⟩ := hi x hx
      obtain ⟨⟨_, _, _, _, _, _, hey⟩, _⟩ := hi y hy
      rw [hxy] at hex
      obtain ⟨a, ra, ha, _, hda, _⟩ := hex
      obtain ⟨c, rc, hc, _, hdc, _⟩ := hey
      rw [ha] at hc
      cases hc
      rw [hda] at hdc
      have ht : x.time = y.time := by
        simp only [Outcome.ret.injEq, Except.ok.injEq] at hdc
        exact hdc
      simp only [Entry.key, hxy, ht]
    have hsum := sum_subset (fun g => countOf P g.packets) (es.map Entry.group) gs hng (by
      intro g hg
      obtain ⟨e, he, rfl⟩ := List.mem_map.1 hg
      exact hmem e he)
    rw [List.map_map] at hsum
    rw [fileGroups_packets hg (hpk f hf), countOf_flatMap]
    exact hsum

/-- C137: counting the packets of a merged file. Of any kind of packets (one that only depends on header and bytes) the merged file has at most as many as the inputs
together, and at least as many as each input file all groups of which are to be merged. -/
theorem C137_counts (b : Build) (τ : Epoch → Int) (m : Merger Path) (files : Path → Option MFile) (hfiles : Readable files) (out : List (List U8))
    (h : Merges b τ m files (.ok out)) (r' : Reader) (hd' : r'.Delivers out.flatten) (inputs : List Path) (hall : ∀ p ∈ m.paths, p ∈ inputs)
    (pk : Path → List Packet) (hpk : ∀ p ∈ inputs, ∀ f, files p = some f → Decodes f.reader (pk p)) :
    ∃ qs, Decodes r' qs ∧ ∀ P,
      (countOf P qs ≤ (inputs.map fun p => countOf P (pk p)).sum) ∧
      ((∀ x y, Inputs b τ m files x → Inputs b τ m files y → x.key τ = y.key τ → x.bytes = y.bytes) →
        ∀ p f own, files p = some f → WhollyMerged b τ m files p f own → ∀ ps, Decodes f.reader ps → countOf P ps ≤ countOf P qs) := by
  obtain ⟨es, hm⟩ := C21_merge b τ m files hfiles out h
  obtain ⟨qs, hqs, hproj⟩ := isMerge_decodes hfiles hm hd'
  refine ⟨qs, hqs, fun P => ?_⟩
  rw [countOf_proj P hproj, countOf_flatMap]
  constructor
  · have main : ∀ (inputs : List Path), (∀ p ∈ inputs, ∀ f, files p = some f → Decodes f.reader (pk p)) →
        ∀ (es : List (Entry Path)), (∀ e ∈ es, Inputs b τ m files e ∧ e.path ∈ inputs) → (es.map (Entry.key τ)).Nodup →
        (es.map fun e => countOf P e.group.packets).sum ≤ (inputs.map fun p => countOf P (pk p)).sum := by
      intro inputs
      induction inputs with
      | nil =>
        intro _ es hi _
        cases es with
        | nil => simp
        | cons e es => exact absurd (hi e (by simp)).2 (by simp)
      | cons p inputs ih =>
        intro hpk es hi hn
        have h1 := one_file_count P p (pk p) (hpk p (by simp)) (es.filter fun e => decide (e.path = p)) (by
          intro e he
          simp only [List.mem_filter, decide_eq_true_eq] at he
          exact ⟨(hi e he.1).1, he.2⟩) (hn.sublist (List.filter_sublist.map _))
        have h2 := ih (fun q hq => hpk q (by simp [hq])) (es.filter fun e => !decide (e.path = p)) (by
          intro e he
          simp only [List.mem_filter, Bool.not_eq_true', decide_eq_false_iff_not] at he
          exact ⟨(hi e he.1).1, (List.mem_cons.1 (hi e he.1).2).resolve_left he.2⟩) (hn.sublist (List.filter_sublist.map _))
        have hs : ∀ l : List (Entry Path), (l.map fun e => countOf P e.group.packets).sum =
            ((l.filter fun e => decide (e.path = p)).map fun e => countOf P e.group.packets).sum +
              ((l.filter fun e => !decide (e.path = p)).map fun e => countOf P e.group.packets).sum := by
          intro l
          induction l with
          | nil => rfl
          | cons e l ihl =>
            by_cases hp : e.path = p
            · simp [hp] at ihl ⊢; omega
            · simp [hp] at ihl ⊢; omega
        rw [hs es, List.map_cons, List.sum_cons]
        omega
    exact main inputs hpk es (fun e he => ⟨hm.inputs e he, hall _ (hm.inputs e he).1⟩) hm.distinct
  · intro hcopy p f own hf hown ps hps
    have hp := fileGroups_packets hown.groups hps
    rw [hp, List.flatMap_map, countOf_flatMap]
    refine sum_counterparts (Entry.key τ) (fun e => countOf P e.group.packets) own es hown.distinct ?_
    intro x hx
    obtain ⟨y, hy, hk⟩ := List.mem_map.1 (hm.complete x (hown.inputs x hx))
    refine ⟨y, hy, hk, countOf_proj P (wire_inj _ _ ?_ ?_ (hcopy y x (hm.inputs y hy) (hown.inputs x hx) hk))⟩
    · obtain ⟨_, f1, gs, a1, a2, a3, _⟩ := hm.inputs y hy
      exact (group_facts (hfiles _ f1 a1) a2 a3).1
    · obtain ⟨_, f1, gs, a1, a2, a3, _⟩ := hown.inputs x hx
      exact (group_facts (hfiles _ f1 a1) a2 a3).1

/-- C137, `info`: the numbers of packets reported for the merged file, in all and of each APID, are at most those of the inputs together and at least those of each input all
groups of which are to be merged. -/
theorem C137_info (b : Build) (τ : Epoch → Int) (cds : Bool) (m : Merger Path) (files : Path → Option MFile) (hfiles : Readable files) (out : List (List U8))
    (h : Merges b τ m files (.ok out)) (r' : Reader) (hd' : r'.Delivers out.flatten) (inputs : List Path) (hall : ∀ p ∈ m.paths, p ∈ inputs)
    (pk : Path → List Packet) (hpk : ∀ p ∈ inputs, ∀ f, files p = some f → Decodes f.reader (pk p)) (res : Option Info.Info) (hr : Info.Runs b τ cds r' res) :
    ∃ i, res = some i ∧ i.summary.total ≤ (inputs.map fun p => (pk p).length).sum ∧
      (∀ a s, (a, s) ∈ i.apids → s.total ≤ (inputs.map fun p => apidCount (pk p) a).sum) ∧
      ((∀ x y, Inputs b τ m files x → Inputs b τ m files y → x.key τ = y.key τ → x.bytes = y.bytes) →
        ∀ p f own, files p = some f → WhollyMerged b τ m files p f own → ∀ ps, Decodes f.reader ps →
          ps.length ≤ i.summary.total ∧ ∀ q ∈ ps, ∃ s, (q.header.apid, s) ∈ i.apids ∧ apidCount ps q.header.apid ≤ s.total) := by
  obtain ⟨qs, hqs, hc⟩ := C137_counts b τ m files hfiles out h r' hd' inputs hall pk hpk
  obtain ⟨i, hi, hres⟩ := C56_info b τ cds _ r' qs hd' hqs
  have hlen : ∀ l : List Packet, countOf (fun _ _ => true) l = l.length := fun l => by simp [countOf]
  have hap : ∀ (a : U16) (l : List Packet), countOf (fun h _ => h.apid == a) l = apidCount l a := fun _ _ => rfl
  have hof : ∀ (a : U16) (l : List Packet), (ofApid l a).length = apidCount l a := fun a l => by rw [ofApid, apidCount, List.countP_eq_length_filter]
  refine ⟨i, (hres res).1 hr, ?_, ?_, ?_⟩
  · have := (hc fun _ _ => true).1
    simpa only [hi.total, hlen] using this
  · intro a s hs
    have := (hc fun h _ => h.apid == a).1
    rw [(hi.each a s hs).1, hof]
    simpa only [hap] using this
  · intro hcopy p f own hf hown ps hps
    constructor
    · have := (hc fun _ _ => true).2 hcopy p f own hf hown ps hps
      simpa only [hi.total, hlen] using this
    · intro q hq
      have := (hc fun h _ => h.apid == q.header.apid).2 hcopy p f own hf hown ps hps
      rw [hap, hap] at this
      have hpos : 0 < apidCount ps q.header.apid := List.countP_pos_iff.2 ⟨q, hq, by simp⟩
      obtain ⟨q', hq', hqa⟩ := List.countP_pos_iff.1 (Nat.lt_of_lt_of_le hpos this)
      obtain ⟨s, hs⟩ := (hi.present q.header.apid).2 ⟨q', hq', by simpa using hqa⟩
      exact ⟨s, hs, by rw [(hi.each _ s hs).1, hof]; exact this⟩

theorem countOf_key (crc : List U8 → U32) (k : Diff.Key) (ps : List Packet) :
    countOf (fun h d => (⟨h.apid, h.sequenceId, crc (d.drop 6)⟩ : Diff.Key) == k) ps = (ps.map (packetKey crc)).count k := by
  rw [countOf, List.count, List.countP_map]
  rfl

/-- C137, `diff`: comparing an input, all groups of which are to be merged, with the merged file never reports a packet that is only in the input; what is reported as only
in the merged file comes from the other inputs. -/
theorem C137_diff (b : Build) (τ : Epoch → Int) (crc : List U8 → U32) (m : Merger Path) (files : Path → Option MFile) (hfiles : Readable files) (out : List (List U8))
    (h : Merges b τ m files (.ok out)) (p : Path) (others : List Path) (hall : ∀ x ∈ m.paths, x ∈ p :: others)
    (pk : Path → List Packet) (hpk : ∀ x ∈ p :: others, ∀ f, files x = some f → Decodes f.reader (pk x))
    (hcopy : ∀ x y, Inputs b τ m files x → Inputs b τ m files y → x.key τ = y.key τ → x.bytes = y.bytes)
    (f f' : MFile) (own : List (Entry Path)) (hf : files p = some f) (hown : WhollyMerged b τ m files p f own) (hd' : f'.reader.Delivers f'.content) (hc' : f'.content = out.flatten)
    (sc : Bool) (t : Option (List (U16 × Nat × Nat))) (lines : List Diff.Line) (hr : Diff.Runs crc (some f) (some f') sc (.differ t lines)) :
    (∀ k, Diff.Line.left k ∉ lines) ∧
    ∀ k, lines.count (.right k) ≤ (others.map fun x => ((pk x).map (packetKey crc)).count k).sum := by
  obtain ⟨qs, hqs, hc⟩ := C137_counts b τ m files hfiles out h f'.reader (hc' ▸ hd') (p :: others) hall pk hpk
  have hps := hpk p (by simp) f hf
  obtain ⟨_, omitted, _, hl⟩ := C54_lines crc f f' (pk p) qs sc t lines (hfiles p f hf) hd' hps hqs hr
  constructor
  · intro k hk
    have h1 := (hl k).1
    have h2 := (hc fun h d => (⟨h.apid, h.sequenceId, crc (d.drop 6)⟩ : Diff.Key) == k).2 hcopy p f own hf hown _ hps
    rw [countOf_key, countOf_key] at h2
    have h3 : 0 < lines.count (.left k) := List.count_pos_iff.2 hk
    rw [List.count_append] at h1
    omega
  · intro k
    have h1 := (hl k).2
    have h2 := (hc fun h d => (⟨h.apid, h.sequenceId, crc (d.drop 6)⟩ : Diff.Key) == k).1
    simp only [countOf_key, List.map_cons, List.sum_cons] at h2
    rw [List.count_append] at h1
    omega

/-- C137: a single file all groups of which are to be merged is only sorted: `diff` finds no difference between it and the merged file. -/
theorem C137_sorted (b : Build) (τ : Epoch → Int) (crc : List U8 → U32) (m : Merger Path) (files : Path → Option MFile) (hfiles : Readable files) (out : List (List U8))
    (h : Merges b τ m files (.ok out)) (p : Path) (hall : ∀ x ∈ m.paths, x = p) (f f' : MFile) (own : List (Entry Path)) (hf : files p = some f)
    (hown : WhollyMerged b τ m files p f own) (hd' : f'.reader.Delivers f'.content) (hc' : f'.content = out.flatten) (ps : List Packet) (hne : ps ≠ []) (hps : Decodes f.reader ps)
    (sc : Bool) (res : Diff.DResult) (hr : Diff.Runs crc (some f) (some f') sc res) : ∃ t, res = .same t := by
  have hpk : ∀ x ∈ [p], ∀ g, files x = some g → Decodes g.reader ps := by
    intro x hx g hg
    obtain rfl := List.mem_singleton.1 hx
    rw [hf] at hg
    cases hg
    exact hps
  have hcopy : ∀ x y, Inputs b τ m files x → Inputs b τ m files y → x.key τ = y.key τ → x.bytes = y.bytes := by
    intro x y hx hy hk
    have key : ∀ x, Inputs b τ m files x → ∃ e ∈ own, e.key τ = x.key τ ∧ e.bytes = x.bytes := by
      intro x hx
      obtain ⟨a1, g, gs, a2, a3, a4, a5⟩ := hx
      rw [hall _ a1, hf] at a2
      cases a2
      rw [Merger.fileGroups_unique a3 hown.groups] at a4
      obtain ⟨e, he, hg⟩ := List.mem_map.1 a4
      refine ⟨e, he, ?_, by rw [Entry.bytes, hg]; rfl⟩
      obtain ⟨_, _, _, _, _, _, b5⟩ := hown.inputs e he
      rw [hg] at b5
      obtain ⟨u, ru, hu, _, hdu, _⟩ := a5
      obtain ⟨v, rv, hv, _, hdv, _⟩ := b5
      rw [hu] at hv
      cases hv
      rw [hdu] at hdv
      have ht : x.time = e.time := by
        simp only [Outcome.ret.injEq, Except.ok.injEq] at hdv
        exact hdv
      rw [Entry.key, Entry.key, hg, ht]
    obtain ⟨e, he, e1, e2⟩ := key x hx
    obtain ⟨e', he', e1', e2'⟩ := key y hy
    have : e = e' := inj_of_nodup hown.distinct he he' (by rw [e1, e1', hk])
    rw [← e2, ← e2', this]
  obtain ⟨qs, hqs, hc⟩ := C137_counts b τ m files hfiles out h f'.reader (hc' ▸ hd') [p] (fun x hx => by rw [hall x hx]; simp) (fun _ => ps) hpk
  refine C54_no_false_alarm crc f f' ps qs sc res (hfiles p f hf) hd' hps hqs hr hne (List.perm_iff_count.2 fun k => ?_)
  have h1 := (hc fun h d => (⟨h.apid, h.sequenceId, crc (d.drop 6)⟩ : Diff.Key) == k).2 hcopy p f own hf hown _ hps
  have h2 := (hc fun h d => (⟨h.apid, h.sequenceId, crc (d.drop 6)⟩ : Diff.Key) == k).1
  simp only [countOf_key, List.map_cons, List.sum_cons, List.map_nil, List.sum_nil] at h1 h2
  omega

end Merging

/-! A file with a group of APID 1 and an earlier packet of APID 2 is sorted by `merge`; and the two parts of it are merged. -/
namespace MergeCheckEx
open AgreeEx FMEx

def mergerOf (l : List Nat) : Merger Nat := { MergeEx.merger with paths := l }

theorem decFirst (b : Build) (off : Nat) : MergeEx.dec.decode b (pkt 1#8 2#8 0xc0#8 0#8 off) = .ret (.ok (time 1)) := by
  have h1 : MergeEx.dec.decode b (pkt 1#8 2#8 0xc0#8 0#8 off) = Timecode.decode b (.cds 2 2) [1#8, 0#8, 0#8, 0#8, 0#8, 0#8, 0#8, 0#8] := rfl
  rw [h1]
  cases b with | mk o => cases o <;> decide

theorem since2 : MergeEx.tau MergeEx.merger.fromEpoch ≤ MergeEx.tau (time 2) := by decide
theorem before2 : MergeEx.tau (time 2) < MergeEx.tau MergeEx.merger.toEpoch := by decide
theorem since1 : MergeEx.tau MergeEx.merger.fromEpoch ≤ MergeEx.tau (time 1) := by decide
theorem before1 : MergeEx.tau (time 1) < MergeEx.tau MergeEx.merger.toEpoch := by decide

theorem isLate (b : Build) (l : List Nat) (p : Nat) (hp : p ∈ l) (f : MFile) (gs : List PacketGroup) (hf : files p = some f) (hg : FileGroups f gs) (hmem : gLate ∈ gs) :
    Inputs b MergeEx.tau (mergerOf l) files ⟨p, gLate, time 2⟩ :=
  ⟨hp, f, gs, hf, hg, hmem, _, _, rfl, .inl (by decide), decLate b 0#8 0x40#8 0, since2, before2, .inl rfl⟩
theorem isFirst (b : Build) (l : List Nat) (p off : Nat) (hp : p ∈ l) (f : MFile) (gs : List PacketGroup) (hf : files p = some f) (hg : FileGroups f gs) (hmem : gFirst off ∈ gs) :
    Inputs b MergeEx.tau (mergerOf l) files ⟨p, gFirst off, time 1⟩ :=
  ⟨hp, f, gs, hf, hg, hmem, _, _, rfl, .inr (by rfl), decFirst b off, since1, before1, .inl rfl⟩

theorem wholly0 (b : Build) : WhollyMerged b MergeEx.tau MergeEx.merger files 0 (MergeEx.file (late ++ first)) [⟨0, gLate, time 2⟩, ⟨0, gFirst 28, time 1⟩] where
  inputs := by
    intro e he
    rcases List.mem_cons.1 he with rfl | he
    · exact isLate b [0] 0 (by simp) _ _ rfl groups0 (by simp)
    · obtain rfl := List.mem_singleton.1 he
      exact isFirst b [0] 0 28 (by simp) _ _ rfl groups0 (by simp)
  groups := groups0
  paths := by simp
  distinct := by decide

/-- Sorting: `diff` sees no difference, although the order is another. -/
example (b : Build) (crc : List U8 → U32) (sc : Bool) (res : Diff.DResult)
    (h : Diff.Runs crc (some (MergeEx.file (late ++ first))) (some (MergeEx.file (first ++ late))) sc res) : ∃ t, res = .same t :=
  C137_sorted b MergeEx.tau crc MergeEx.merger files readable _ (mergesWhole b) 0 (by decide) _ _ _ rfl (wholly0 b) (FuseEx.delivers (l := first ++ late) (by decide)) (by decide) _
    (by simp) decodes0 sc res h

theorem wholly1 (b : Build) : WhollyMerged b MergeEx.tau (mergerOf [1, 2]) files 1 (MergeEx.file late) [⟨1, gLate, time 2⟩] where
  inputs := by
    intro e he
    obtain rfl := List.mem_singleton.1 he
    exact isLate b [1, 2] 1 (by simp) _ _ rfl groups1 (by simp)
  groups := groups1
  paths := by simp
  distinct := by decide

def parts : Nat → List Packet
  | 1 => gLate.packets
  | _ => (gFirst 0).packets

theorem decodesParts : ∀ p ∈ [1, 2], ∀ f, files p = some f → Decodes f.reader (parts p) := by
  intro p hp f hf
  rcases List.mem_cons.1 hp with rfl | hp
  · cases hf; exact ⟨_, .step rfl (.step rfl (.done rfl))⟩
  · obtain rfl := List.mem_singleton.1 hp
    cases hf; exact ⟨_, .step rfl (.done rfl)⟩

theorem inputsParts {b : Build} {e : Entry Nat} (h : Inputs b MergeEx.tau (mergerOf [1, 2]) files e) : e = ⟨1, gLate, time 2⟩ ∨ e = ⟨2, gFirst 0, time 1⟩ := by
  obtain ⟨p, g, t⟩ := e
  obtain ⟨hp, f, gs, hf, hgs, hg, he⟩ := h
  simp only at hp hf hg he
  have hp : p = 1 ∨ p = 2 := by simpa [mergerOf] using hp
  obtain ⟨fp, rest, ep, _, hd, _, _, hs⟩ := he
  rcases hp with rfl | rfl
  · cases hf
    obtain rfl := Merger.fileGroups_unique hgs groups1
    obtain rfl := List.mem_singleton.1 hg
    have e1 : pkt 2#8 1#8 0x40#8 0#8 0 = fp := (List.cons.inj ep).1
    subst e1
    have := (decLate b 0#8 0x40#8 0).symm.trans hd
    simp only [Outcome.ret.injEq, Except.ok.injEq] at this
    exact .inl (by rw [this])
  · cases hf
    obtain rfl := Merger.fileGroups_unique hgs groups2
    obtain rfl := List.mem_singleton.1 hg
    have e1 : pkt 1#8 2#8 0xc0#8 0#8 0 = fp := (List.cons.inj ep).1
    subst e1
    have := (decFirst b 0).symm.trans hd
    simp only [Outcome.ret.injEq, Except.ok.injEq] at this
    exact .inr (by rw [this])

theorem copies (b : Build) (x y : Entry Nat) (hx : Inputs b MergeEx.tau (mergerOf [1, 2]) files x) (hy : Inputs b MergeEx.tau (mergerOf [1, 2]) files y)
    (hk : x.key MergeEx.tau = y.key MergeEx.tau) : x.bytes = y.bytes := by
  rcases inputsParts hx with rfl | rfl <;> rcases inputsParts hy with rfl | rfl
  all_goals first | rfl | exact absurd hk (by decide)

/-- Merging the two parts: nothing is only in the first part. -/
example (b : Build) (crc : List U8 → U32) (sc : Bool) (t : Option (List (U16 × Nat × Nat))) (lines : List Diff.Line)
    (h : Diff.Runs crc (some (MergeEx.file late)) (some (MergeEx.file (first ++ late))) sc (.differ t lines)) : ∀ k, Diff.Line.left k ∉ lines :=
  (C137_diff b MergeEx.tau crc (mergerOf [1, 2]) files readable _ (mergesParts b) 1 [2] (fun _ h => h) parts decodesParts (copies b) _ _ _ rfl (wholly1 b)
    (FuseEx.delivers (l := first ++ late) (by decide)) (by decide) sc t lines h).1

/-- Three packets in the merged file, two of them of APID 1. -/
example (b : Build) (cds : Bool) (res : Option Info.Info) (h : Info.Runs b MergeEx.tau cds (MergeEx.file (first ++ late)).reader res) :
    ∃ i, res = some i ∧ 2 ≤ i.summary.total ∧ i.summary.total ≤ 3 := by
  obtain ⟨i, h1, h2, _, h3⟩ := C137_info b MergeEx.tau cds (mergerOf [1, 2]) files readable _ (mergesParts b) (MergeEx.file (first ++ late)).reader
    (FuseEx.delivers (l := first ++ late) (by decide)) [1, 2] (fun _ h => h) parts decodesParts res h
  have h4 := h3 (copies b) 1 _ _ rfl (wholly1 b) _ (decodesParts 1 (by simp) _ rfl)
  exact ⟨i, h1, h4.1, h2⟩

end MergeCheckEx
end Ccsds
