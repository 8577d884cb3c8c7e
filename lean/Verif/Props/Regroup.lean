import Verif.Spec.Fuse
import Verif.Props.Concat
/-!
# C123: the groups of a file that was filtered, merged or concatenated

C12 says how a packet sequence is cut into groups; here is what that means for files written by the tools: the groups of the new file are the groups that were written, except that
neighbours become one where `fuse` says so.  This makes C93, C95 and C99 exact: it is the only difference.
-/
namespace Ccsds
open Spec Merger Filter

theorem startsUnsegmented_cons (p : Packet) (rest : List Packet) : startsUnsegmented (p :: rest) = p.isStandalone := by
  simp only [startsUnsegmented, List.head?_cons, Option.any_some, Packet.isStandalone]
  rw [Bool.eq_iff_iff, beq_iff_eq]
  constructor
  · intro h
    have : p.header.sequenceFlags = PrimaryHeader.SEQ_UNSEGMENTED := BitVec.eq_of_toNat_eq h
    simpa using this
  · intro h
    have : p.header.sequenceFlags = PrimaryHeader.SEQ_UNSEGMENTED := by simpa using h
    rw [this]; rfl

/-! ## Fusing -/

theorem mem_takeWhile_true {α : Type} (f : α → Bool) (l : List α) : ∀ x ∈ l.takeWhile f, f x = true := by
  induction l with
  | nil => simp
  | cons a l ih =>
    rw [List.takeWhile_cons]
    split
    · rename_i ha
      intro x hx
      rcases List.mem_cons.1 hx with rfl | hx
      · exact ha
      · exact ih x hx
    · simp

theorem head_dropWhile_false {α : Type} (f : α → Bool) (l : List α) : ∀ x ∈ (l.dropWhile f).head?, f x = false := by
  induction l with
  | nil => simp
  | cons a l ih =>
    rw [List.dropWhile_cons]
    split
    · exact ih
    · rename_i ha
      intro x hx
      simp at hx
      subst hx
      simpa using ha

theorem absorb_flatten (g : List Packet) (gs : List (List Packet)) : (absorb g gs).flatten = g ++ gs.flatten := by
  unfold absorb
  split
  · rfl
  · rw [List.flatten_cons, List.append_assoc, ← List.flatten_append, List.takeWhile_append_dropWhile]

/-- No packet is lost, added or moved. -/
theorem fuse_flatten (gs : List (List Packet)) : (fuse gs).flatten = gs.flatten := by
  induction gs with
  | nil => rfl
  | cons g gs ih => rw [fuse, absorb_flatten, ih, List.flatten_cons]

theorem cut_groupable {gs : List (List Packet)} (h : CutWhereApidChanges gs) : ∀ g ∈ gs, Groupable g := by
  induction gs with
  | nil => simp
  | cons g gs ih =>
    obtain ⟨⟨p, rest, e, h1, h2, _⟩, h3⟩ := h
    intro k hk
    rcases List.mem_cons.1 hk with rfl | hk
    · exact ⟨p, rest, e, h1, h2⟩
    · exact ih h3 k hk

theorem cut_dropWhile {gs : List (List Packet)} (f : List Packet → Bool) (h : CutWhereApidChanges gs) : CutWhereApidChanges (gs.dropWhile f) := by
  induction gs with
  | nil => exact h
  | cons g gs ih =>
    rw [List.dropWhile_cons]
    split
    · exact ih h.2
    · exact h

theorem cut_absorb {g : List Packet} {gs : List (List Packet)} (hg : Groupable g) (h : CutWhereApidChanges gs) : CutWhereApidChanges (absorb g gs) := by
  obtain ⟨p, rest, rfl, h1, h2⟩ := hg
  unfold absorb
  rw [startsUnsegmented_cons]
  split
  · rename_i hs
    exact ⟨⟨p, rest, rfl, h1, h2, fun hn => by rw [hs] at hn; cases hn⟩, h⟩
  · rename_i hs
    refine ⟨⟨p, rest ++ (gs.takeWhile fun h => groupApid h == groupApid (p :: rest)).flatten, rfl, fun hn => absurd hn hs, ?_, ?_⟩, cut_dropWhile _ h⟩
    · intro q hq
      rcases List.mem_append.1 hq with hq | hq
      · exact h2 q hq
      · obtain ⟨k, hk, hq⟩ := List.mem_flatten.1 hq
        have hka := mem_takeWhile_true _ _ k hk
        obtain ⟨x, xs, rfl, _, k2⟩ := cut_groupable h k (List.takeWhile_subset _ hk)
        simp only [groupApid, List.head?_cons, Option.map_some, beq_iff_eq, Option.some.injEq] at hka
        rcases List.mem_cons.1 hq with rfl | hq
        · exact hka
        · rw [k2 q hq, hka]
    · intro _ k hk e
      have hk := head_dropWhile_false _ _ k hk
      rw [beq_eq_false_iff_ne] at hk
      exact hk e

/-- Groups one after the other, cut where the APID changes. -/
theorem cut_fuse (gs : List (List Packet)) (h : ∀ g ∈ gs, Groupable g) : CutWhereApidChanges (fuse gs) := by
  induction gs with
  | nil => trivial
  | cons g gs ih => exact cut_absorb (h g (by simp)) (ih fun k hk => h k (by simp [hk]))

/-- C12, for groups written one after the other: `collect_groups` gives `fuse` of them. -/
theorem C12_fuse (gs ks : List (List Packet)) (h : ∀ g ∈ gs, Groupable g) : Groups gs.flatten ks ↔ ks = fuse gs := by
  have h1 : Groups gs.flatten (fuse gs) := (C12_exact _ _).2 ⟨fuse_flatten gs, cut_fuse gs h⟩
  constructor
  · rintro ⟨out, s, c, rfl⟩
    obtain ⟨out', s', c', e⟩ := h1
    have : out = out' := map_ok_inj (c.unique c').1
    rw [this, e]
  · rintro rfl
    exact h1

/-- Nothing is fused exactly if every group that does not begin with an unsegmented packet is followed by one of another APID (or by none). -/
theorem C12_fuse_id (gs : List (List Packet)) (h : ∀ g ∈ gs, Groupable g) :
    fuse gs = gs ↔ ∀ l g k r, gs = l ++ g :: k :: r → startsUnsegmented g = true ∨ groupApid k ≠ groupApid g := by
  constructor
  · intro e l g k r hs
    have hc := cut_fuse gs h
    rw [e, hs] at hc
    clear e hs h
    induction l with
    | nil =>
      obtain ⟨⟨p, rest, rfl, _, _, h3⟩, _⟩ := hc
      rw [startsUnsegmented_cons]
      cases hp : p.isStandalone with
      | true => exact .inl rfl
      | false => exact .inr (h3 hp k (by simp))
    | cons x l ih => exact ih hc.2
  · intro hn
    induction gs with
    | nil => rfl
    | cons g gs ih =>
      rw [fuse, ih (fun k hk => h k (by simp [hk])) (fun l x k r e => hn (g :: l) x k r (by rw [e]; rfl))]
      unfold absorb
      split
      · rfl
      · rename_i hs
        cases gs with
        | nil => simp
        | cons k r =>
          have hne : (groupApid k == groupApid g) = false := by
            rcases hn [] g k r rfl with h0 | h0
            · exact absurd h0 hs
            · simpa using h0
          rw [List.takeWhile_cons, List.dropWhile_cons, hne]
          simp

/-! ## Only header and data matter -/

theorem groupApid_proj {g k : List Packet} (h : proj g = proj k) : groupApid g = groupApid k := by
  have := congrArg (fun l => l.head?.map fun x : PrimaryHeader × List U8 => x.1.apid) h
  simpa [proj, groupApid, List.head?_map, Option.map_map, Function.comp_def] using this

/-! ## C123 -/

/-- C123: the groups of a file that holds the packets of the groups `ls`, one after the other. -/
theorem C123_read (f : MFile) (hd : f.reader.Delivers f.content) (ls : List (List Packet)) (hg : ∀ l ∈ ls, Groupable l)
    (hw : ∀ l ∈ ls, ∀ p ∈ l, p.WellFormed ∧ p.data.length ≤ 65536) (hc : f.content = wire ls.flatten) :
    (∃ ks, FileGroups f ks) ∧ ∀ ks, FileGroups f ks → ks.map (fun k => proj k.packets) = (fuse ls).map proj := by
  obtain ⟨qs, s, c1, c2, _⟩ := C05_roundtrip ls.flatten [] f.reader
    (by
      intro p hp
      obtain ⟨l, hl, hp⟩ := List.mem_flatten.1 hp
      exact hw l hl p hp)
    (by simp [packetLen]) (by simp) (by rw [List.append_nil, ← hc]; exact hd)
  obtain ⟨ls', l1, l2⟩ := split_like (fun p : Packet => (p.header, p.data)) (fuse ls) qs (by rw [c2, fuse_flatten])
  obtain ⟨ks, s3, d1, d2⟩ := (C12_exact _ ls').2 ⟨l1, cut_congr _ _ l2 (cut_fuse ls hg)⟩
  have hks : FileGroups f ks := ⟨_, s, s3, c1, d1⟩
  refine ⟨⟨ks, hks⟩, ?_⟩
  intro ks' hk'
  rw [fileGroups_unique hk' hks]
  rw [← d2] at l2
  simpa [List.map_map, Function.comp_def, proj] using l2

/-- The packets of whole groups of a file are well formed. -/
theorem written_groups {f : MFile} (hd : f.reader.Delivers f.content) {gs : List PacketGroup} (h : FileGroups f gs) (keep : PacketGroup → Bool) :
    (∀ l ∈ (gs.filter keep).map PacketGroup.packets, Groupable l) ∧ ∀ l ∈ (gs.filter keep).map PacketGroup.packets, ∀ p ∈ l, p.WellFormed ∧ p.data.length ≤ 65536 := by
  constructor <;> intro l hl <;> obtain ⟨g, hg, rfl⟩ := List.mem_map.1 hl <;> have := group_facts hd h (List.mem_filter.1 hg).1
  · exact this.2
  · exact this.1

/-- C123: the groups of a file filtered by APID are the groups with these APIDs, fused. -/
theorem C123_filter (b : Build) (τ : Epoch → Int) (hτ : τ minEpoch < τ maxEpoch) (f f' : MFile) (hd : f.reader.Delivers f.content) (hd' : f'.reader.Delivers f'.content)
    (incl excl : List U16) (hne : incl ≠ [] ∨ excl ≠ []) (w : List (List U8)) (h : Runs b τ f.reader incl excl none none (.ok w)) (hw : f'.content = w.flatten)
    (gs ks : List PacketGroup) (hgs : FileGroups f gs) (hks : FileGroups f' ks) :
    ks.map (fun k => proj k.packets) = (fuse ((gs.filter fun g => decide (ApidPasses incl excl g.apid)).map PacketGroup.packets)).map proj := by
  obtain ⟨h1, h2⟩ := written_groups hd hgs fun g => decide (ApidPasses incl excl g.apid)
  refine (C123_read f' hd' _ h1 h2 ?_).2 ks hks
  obtain ⟨ps, s, s', c1, c2⟩ := hgs
  obtain ⟨gs0, s0, k1, k2, k3⟩ := C11_partition ps
  have : gs0 = gs := map_ok_inj (k1.unique c2).1
  subst this
  have hw' := FResult.ok.inj ((C53_untimed b τ hτ f.reader ps ⟨s, c1⟩ incl excl hne _).1 h)
  rw [hw, hw', wire, ← List.flatMap_def]
  refine congrArg (List.flatMap Packet.data) ?_
  rw [← k2]
  clear k1 k2 c1 c2 hw' h1 h2
  induction gs0 with
  | nil => rfl
  | cons g gs ih =>
    rw [List.flatMap_cons, List.filter_append, ih (fun k hk => k3 k (by simp [hk])), List.filter_cons]
    have hg := (k3 g (by simp)).2
    by_cases hm : ApidPasses incl excl g.apid
    · have : g.packets.filter (fun p => decide (ApidPasses incl excl p.header.apid)) = g.packets := by
        rw [List.filter_eq_self]
        intro p hp
        rw [hg p hp]
        simpa using hm
      rw [this]
      simp [hm]
    · have : g.packets.filter (fun p => decide (ApidPasses incl excl p.header.apid)) = [] := by
        rw [List.filter_eq_nil_iff]
        intro p hp
        rw [hg p hp]
        simpa using hm
      rw [this]
      simp [hm]

/-- C123: the groups of a file filtered by time (and APID) are the groups that pass, fused. -/
theorem C123_timed (b : Build) (τ : Epoch → Int) (f f' : MFile) (hd : f.reader.Delivers f.content) (hd' : f'.reader.Delivers f'.content)
    (incl excl : List U16) (before after : Option Epoch) (hb : before.isSome ∨ after.isSome) (gs ks : List PacketGroup) (hgs : FileGroups f gs) (hks : FileGroups f' ks)
    (hm : before = none → ∀ g ∈ gs, ∀ first ∈ g.packets.head?, ∀ t ∈ cdsTime first, τ t < τ ⟨.utc, (daysTo1958 + 51865) * 86400 * 1000000000⟩)
    (w : List (List U8)) (h : Runs b τ f.reader incl excl before after (.ok w)) (hw : f'.content = w.flatten) :
    ks.map (fun k => proj k.packets) = (fuse ((gs.filter (groupPasses τ incl excl before after)).map PacketGroup.packets)).map proj := by
  obtain ⟨h1, h2⟩ := written_groups hd hgs (groupPasses τ incl excl before after)
  refine (C123_read f' hd' _ h1 h2 ?_).2 ks hks
  obtain ⟨ps, s, s', c1, c2⟩ := hgs
  have hw' := FResult.ok.inj ((C53_partial b τ f.content f.reader ps gs incl excl before after hd ⟨s, c1⟩ ⟨s', c2⟩ hb hm _).1 h)
  rw [hw, hw', wire, List.flatMap_def, List.map_flatten, List.flatten_flatten, List.map_map, List.map_map]
  rfl

section
variable {Path : Type} [DecidableEq Path]

/-- C123: the groups of a file written by a merge are the merged groups, in the order of the merge, fused. -/
theorem C123_merge (b : Build) (τ : Epoch → Int) (m : Merger Path) (files : Path → Option MFile) (hfiles : Readable files) (out : List (List U8))
    (h : Merges b τ m files (.ok out)) (f' : MFile) (hd' : f'.reader.Delivers f'.content) (hc : f'.content = out.flatten) (ks : List PacketGroup) (hks : FileGroups f' ks) :
    ∃ es, IsMerge b τ m files out es ∧ ks.map (fun k => proj k.packets) = (fuse (es.map fun e => e.group.packets)).map proj := by
  obtain ⟨es, hm⟩ := C21_merge b τ m files hfiles out h
  refine ⟨es, hm, ?_⟩
  have hfacts : ∀ e ∈ es, (∀ p ∈ e.group.packets, p.WellFormed ∧ p.data.length ≤ 65536) ∧ Groupable e.group.packets := by
    intro e he
    obtain ⟨_, f, gs, a1, a2, a3, _⟩ := hm.inputs e he
    exact group_facts (hfiles _ f a1) a2 a3
  refine (C123_read f' hd' _ ?_ ?_ ?_).2 ks hks
  · intro l hl
    obtain ⟨e, he, rfl⟩ := List.mem_map.1 hl
    exact (hfacts e he).2
  · intro l hl
    obtain ⟨e, he, rfl⟩ := List.mem_map.1 hl
    exact (hfacts e he).1
  · rw [hc, hm.bytes, wire, List.flatMap_def, List.map_flatten, List.flatten_flatten, List.map_map, List.map_map]
    rfl

end

/-- C123: the groups of two files one after the other are those of the first and then those of the second, fused (which concerns only the last group of the first file). -/
theorem C123_concat (f f1 f2 : MFile) (hf : f.reader.Delivers f.content) (hf1 : f1.reader.Delivers f1.content) (hf2 : f2.reader.Delivers f2.content)
    (hc : f.content = f1.content ++ f2.content) (ps : List Packet) (hps : Decodes f1.reader ps) (hwhole : wire ps = f1.content) (gs hs ks : List PacketGroup)
    (hg : FileGroups f1 gs) (hh : FileGroups f2 hs) (hk : FileGroups f ks) :
    ks.map (fun k => proj k.packets) = (fuse ((gs ++ hs).map PacketGroup.packets)).map proj := by
  obtain ⟨ps', s1, s1', c1, c1'⟩ := id hg
  obtain ⟨qs, s2, s2', c2, c2'⟩ := id hh
  have : ps' = ps := by
    obtain ⟨s, hps⟩ := hps
    exact map_ok_inj (c1.unique hps).1
  subst this
  obtain ⟨s, hd⟩ := C98_decode _ _ f1.reader f2.reader f.reader hf1 hf2 (hc ▸ hf) ps' qs hps hwhole ⟨s2, c2⟩
  have k1 := ((C12_exact ps' _).1 ⟨gs, s1', c1', rfl⟩).1
  have k2 := ((C12_exact qs _).1 ⟨hs, s2', c2', rfl⟩).1
  obtain ⟨ls, l1, l2⟩ := split_like (fun p : Packet => (p.header, p.data)) (fuse ((gs ++ hs).map PacketGroup.packets))
    (ps' ++ qs.map (Packet.shift f1.content.length)) (by
      rw [fuse_flatten, List.map_append (f := PacketGroup.packets), List.flatten_append, k1, k2]
      simp [Packet.shift])
  have hcut : CutWhereApidChanges (fuse ((gs ++ hs).map PacketGroup.packets)) := by
    refine cut_fuse _ ?_
    intro l hl
    obtain ⟨g, hgm, rfl⟩ := List.mem_map.1 hl
    rcases List.mem_append.1 hgm with hgm | hgm
    · exact (group_facts hf1 hg hgm).2
    · exact (group_facts hf2 hh hgm).2
  obtain ⟨ks', s3, d1, d2⟩ := (C12_exact _ ls).2 ⟨l1, cut_congr _ _ l2 hcut⟩
  rw [fileGroups_unique hk ⟨_, s, s3, hd, d1⟩]
  rw [← d2] at l2
  simpa [List.map_map, Function.comp_def, proj] using l2

/-! ## Filtering by time again -/

/-- A fused group begins with the first packet of one of the groups. -/
theorem fuse_head (ls : List (List Packet)) (h : ∀ l ∈ ls, l ≠ []) : ∀ k ∈ fuse ls, ∃ l ∈ ls, k.head? = l.head? := by
  induction ls with
  | nil => simp [fuse]
  | cons g gs ih =>
    have ih := ih fun l hl => h l (by simp [hl])
    have hg := h g (by simp)
    intro k hk
    rw [fuse] at hk
    have key : k = g ∨ (∃ x, k = g ++ x) ∨ k ∈ fuse gs := by
      unfold absorb at hk
      split at hk
      · rcases List.mem_cons.1 hk with rfl | hk
        · exact .inl rfl
        · exact .inr (.inr hk)
      · rcases List.mem_cons.1 hk with rfl | hk
        · exact .inr (.inl ⟨_, rfl⟩)
        · exact .inr (.inr ((List.dropWhile_sublist _).subset hk))
    rcases key with rfl | ⟨x, rfl⟩ | hk
    · exact ⟨k, by simp, rfl⟩
    · refine ⟨g, by simp, ?_⟩
      cases g with
      | nil => exact absurd rfl hg
      | cons p r => rfl
    · obtain ⟨l, hl, e⟩ := ih k hk
      exact ⟨l, by simp [hl], e⟩

/-- Whether a group passes depends on its first packet. -/
theorem groupPasses_head {τ : Epoch → Int} {incl excl : List U16} {before after : Option Epoch} {g k : PacketGroup}
    (h : k.packets.head?.map (fun p => (p.header, p.data)) = g.packets.head?.map fun p => (p.header, p.data)) :
    groupPasses τ incl excl before after k = groupPasses τ incl excl before after g := by
  unfold groupPasses
  cases hk : k.packets with
  | nil =>
    cases hg : g.packets with
    | nil => rfl
    | cons => rw [hk, hg] at h; simp at h
  | cons p r =>
    cases hg : g.packets with
    | nil => rw [hk, hg] at h; simp at h
    | cons q r' =>
      rw [hk, hg] at h
      simp only [List.head?_cons, Option.map_some, Option.some.injEq, Prod.mk.injEq] at h
      simp only [cdsTime, h.1, h.2]

/-- C123: filtering by time (and APID) a file that was already filtered with the same bounds changes nothing, even where groups were fused. -/
theorem C123_timed_again (b : Build) (τ : Epoch → Int) (f f' : MFile) (hd : f.reader.Delivers f.content) (hd' : f'.reader.Delivers f'.content)
    (incl excl : List U16) (before after : Option Epoch) (hb : before.isSome ∨ after.isSome) (gs : List PacketGroup) (hgs : FileGroups f gs)
    (hm : before = none → ∀ g ∈ gs, ∀ first ∈ g.packets.head?, ∀ t ∈ cdsTime first, τ t < τ ⟨.utc, (daysTo1958 + 51865) * 86400 * 1000000000⟩)
    (w : List (List U8)) (h : Runs b τ f.reader incl excl before after (.ok w)) (hw : f'.content = w.flatten) :
    (∃ res, Runs b τ f'.reader incl excl before after res) ∧
      ∀ res, Runs b τ f'.reader incl excl before after res → ∃ w', res = .ok w' ∧ w'.flatten = w.flatten := by
  obtain ⟨h1, h2⟩ := written_groups hd hgs (groupPasses τ incl excl before after)
  have hcont : f'.content = wire ((gs.filter (groupPasses τ incl excl before after)).map PacketGroup.packets).flatten := by
    obtain ⟨ps, s, s', c1, c2⟩ := id hgs
    have hw' := FResult.ok.inj ((C53_partial b τ f.content f.reader ps gs incl excl before after hd ⟨s, c1⟩ ⟨s', c2⟩ hb hm _).1 h)
    rw [hw, hw', wire, List.flatMap_def, List.map_flatten, List.flatten_flatten, List.map_map, List.map_map]
    rfl
  obtain ⟨⟨ks, hks⟩, hall⟩ := C123_read f' hd' _ h1 h2 hcont
  have hproj := hall ks hks
  have hhead : ∀ k ∈ ks, ∃ g ∈ gs, groupPasses τ incl excl before after g = true ∧
      k.packets.head?.map (fun p => (p.header, p.data)) = g.packets.head?.map fun p => (p.header, p.data) := by
    intro k hk
    have := List.mem_map_of_mem (f := fun k : PacketGroup => proj k.packets) hk
    rw [hproj] at this
    obtain ⟨l, hl, e⟩ := List.mem_map.1 this
    obtain ⟨l', hl', e'⟩ := fuse_head _ (by
      intro l hl
      obtain ⟨p, r, e, _⟩ := h1 l hl
      rw [e]; simp) l hl
    obtain ⟨g, hg, rfl⟩ := List.mem_map.1 hl'
    refine ⟨g, (List.mem_filter.1 hg).1, (List.mem_filter.1 hg).2, ?_⟩
    rw [← e', ← List.head?_map, ← List.head?_map]
    exact congrArg List.head? e.symm
  obtain ⟨qs, s, s', c1, c2⟩ := id hks
  have hiff := C53_partial b τ f'.content f'.reader qs ks incl excl before after hd' ⟨s, c1⟩ ⟨s', c2⟩ hb (by
    intro hbn k hk first hf t ht
    obtain ⟨g, hg, _, e⟩ := hhead k hk
    cases hgh : g.packets.head? with
    | none => rw [hgh, hf] at e; simp at e
    | some q =>
      rw [hgh, hf] at e
      simp only [Option.map_some, Option.some.injEq, Prod.mk.injEq] at e
      refine hm hbn g hg q hgh t ?_
      simpa only [cdsTime, e.2] using ht)
  have hfil : ks.filter (groupPasses τ incl excl before after) = ks := by
    rw [List.filter_eq_self]
    intro k hk
    obtain ⟨g, _, hp, e⟩ := hhead k hk
    rw [groupPasses_head e, hp]
  rw [hfil] at hiff
  have hbytes : (ks.map groupBytes).flatten = w.flatten := by
    have e1 : (ks.map groupBytes).flatten = wire qs := by
      rw [← ((C12_exact qs _).1 ⟨ks, s', c2, rfl⟩).1, wire, List.flatMap_def, List.map_flatten, List.flatten_flatten, List.map_map, List.map_map]
      rfl
    have e2 : (ks.map fun k => proj k.packets).flatten = proj ((gs.filter (groupPasses τ incl excl before after)).map PacketGroup.packets).flatten := by
      rw [hproj, ← fuse_flatten, proj, List.map_flatten]
    have e3 : (ks.map fun k => proj k.packets).flatten = proj qs := by
      rw [← ((C12_exact qs _).1 ⟨ks, s', c2, rfl⟩).1, proj, List.map_flatten, List.map_map]
      rfl
    have e4 : ∀ l : List Packet, wire l = ((proj l).map (·.2)).flatten := by
      intro l
      rw [wire, proj, List.map_map, List.flatMap_def]
      rfl
    rw [e1, ← hw, hcont, e4, e4, ← e2, ← e3]
  exact ⟨⟨_, (hiff _).2 rfl⟩, fun res hr => ⟨_, (hiff res).1 hr, hbytes⟩⟩

/-! ## Concrete cases -/
namespace FuseEx
open FMEx

theorem delivers {l : List U8} (hl : l ≠ []) : (MergeEx.file l).reader.Delivers (MergeEx.file l).content := CatEx.delivers l hl

/-- `fuse` on three groups: the two segmented groups of APID 1 become one when nothing stands between, and not otherwise. -/
example : fuse [gLate.packets, gEarly.packets] = [gLate.packets ++ gEarly.packets] ∧
    fuse [gLate.packets, gOther.packets, gEarly.packets] = [gLate.packets, gOther.packets, gEarly.packets] ∧
    fuse [gOther.packets, gOther.packets] = [gOther.packets, gOther.packets] := by decide +kernel

theorem groupable : (∀ l ∈ [gLate.packets, gEarly.packets], Groupable l) := by
  have h1 : Groupable gLate.packets := ⟨_, _, rfl, by decide, by decide⟩
  have h2 : Groupable gEarly.packets := ⟨_, _, rfl, by decide, by decide⟩
  simp [h1, h2]

example : Groups (gLate.packets ++ gEarly.packets) [gLate.packets ++ gEarly.packets] := by
  have := (C12_fuse [gLate.packets, gEarly.packets] [gLate.packets ++ gEarly.packets] groupable).2 (by decide +kernel)
  simpa using this

example : fuse [gLate.packets, gEarly.packets] ≠ [gLate.packets, gEarly.packets] := by
  rw [Ne, C12_fuse_id _ groupable]
  intro h
  rcases h [] _ _ [] rfl with h | h
  · revert h; decide
  · exact h (by decide)

/-- Two groups of two packets each in a file: read as one group of four. -/
example : ∀ ks, FileGroups (MergeEx.file (late ++ early)) ks → ks.map (fun k => proj k.packets) = [proj (gLate.packets ++ gEarly.packets)] := by
  intro ks hk
  have := (C123_read (MergeEx.file (late ++ early)) (delivers (by decide)) [gLate.packets, gEarly.packets] groupable
    (by unfold Packet.WellFormed; decide +kernel) (by decide +kernel)).2 ks hk
  rw [this]
  decide +kernel

/-- `ccsds filter --include 1` (see `C93_violated`): four packets are written, two groups become one. -/
theorem filterRun (b : Build) : Runs b MergeEx.tau (MergeEx.file whole).reader [1#16] [] none none
    (.ok [bytes 2#8 1#8 0x40#8 0#8, bytes 2#8 1#8 0x80#8 1#8, bytes 1#8 1#8 0x40#8 2#8, bytes 1#8 1#8 0x80#8 3#8]) :=
  (C53_untimed b MergeEx.tau (by decide) _ _ decodes [1#16] [] (by simp) _).2 (by decide +kernel)

example (b : Build) : proj gBoth.packets = proj (gLate.packets ++ gEarly.packets) := by
  have := C123_filter b MergeEx.tau (by decide) (MergeEx.file whole) (MergeEx.file (late ++ early)) (delivers (by decide)) (delivers (by decide)) [1#16] [] (by simp) _
    (filterRun b) (by decide) [gLate, gOther, gEarly] [gBoth] groups groups'
  have e : (fuse (([gLate, gOther, gEarly].filter fun g => decide (ApidPasses [1#16] [] g.apid)).map PacketGroup.packets)) = [gLate.packets ++ gEarly.packets] := by decide +kernel
  rw [e] at this
  simpa using this

/-- `--include 1 --before` a late time. -/
theorem timedRun (b : Build) : Runs b MergeEx.tau (MergeEx.file whole).reader [1#16] [] (some (time 9)) none (.ok [late, early]) := by
  obtain ⟨ps, s, s', c1, c2⟩ := groups
  refine (C53_partial b MergeEx.tau whole _ ps [gLate, gOther, gEarly] [1#16] [] (some (time 9)) none (delivers (by decide)) ⟨s, c1⟩ ⟨s', c2⟩ (.inl rfl) (by simp) _).2 ?_
  decide +kernel

example (b : Build) : proj gBoth.packets = proj (gLate.packets ++ gEarly.packets) := by
  have := C123_timed b MergeEx.tau (MergeEx.file whole) (MergeEx.file (late ++ early)) (delivers (by decide)) (delivers (by decide)) [1#16] [] (some (time 9)) none (.inl rfl)
    [gLate, gOther, gEarly] [gBoth] groups groups' (by simp) _ (timedRun b) (by decide)
  have e : (fuse (([gLate, gOther, gEarly].filter (groupPasses MergeEx.tau [1#16] [] (some (time 9)) none)).map PacketGroup.packets)) =
      [gLate.packets ++ gEarly.packets] := by decide +kernel
  rw [e] at this
  simpa using this

/-- The same filter again: one group is read and written, with the same bytes. -/
example (b : Build) (res : FResult) (h : Runs b MergeEx.tau (MergeEx.file (late ++ early)).reader [1#16] [] (some (time 9)) none res) :
    ∃ w', res = .ok w' ∧ w'.flatten = late ++ early := by
  have := (C123_timed_again b MergeEx.tau (MergeEx.file whole) (MergeEx.file (late ++ early)) (delivers (by decide)) (delivers (by decide)) [1#16] [] (some (time 9)) none
    (.inl rfl) _ groups (by simp) _ (timedRun b) (by decide)).2 res h
  simpa using this

/-- The file written by a merge of file 0 (see `C95_violated`): its two groups are read as one. -/
example (b : Build) : ∃ es, IsMerge b MergeEx.tau { MSEx.merger with paths := [0] } MSEx.files [MSEx.day 1#8 0#8, MSEx.day 3#8 4#8] es ∧
    [proj MSEx.gBoth.packets] = (fuse (es.map fun e => e.group.packets)).map proj :=
  C123_merge b MergeEx.tau _ MSEx.files MSEx.readable _ (MSEx.mergesFirst b) (MergeEx.file MSEx.c2) (delivers (by decide)) (by decide) _ MSEx.groups2

/-- Two files one after the other (see `C99_violated`). -/
example : [proj CatEx.gBoth.packets] = (fuse [(MSEx.grp 3#8 0#8 0).packets, (MSEx.grp 1#8 2#8 0).packets]).map proj :=
  C123_concat (MergeEx.file CatEx.whole) _ _ (delivers (by decide)) (delivers (by decide)) (delivers (by decide)) rfl _ CatEx.decodes (by decide) _ _ _
    CatEx.groups1 CatEx.groups2 CatEx.groups0

end FuseEx

end Ccsds
