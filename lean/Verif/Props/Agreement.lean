import Verif.Props.Regroup
import Verif.Props.Order
/-!
# C124, C125: the commands agree with each other

C124: what `info` and `diff` say about a file that `filter` wrote.  C125: splitting a file by APID and merging the parts.
-/
namespace Ccsds
open Spec Merger Filter

/-! ## C124, `info` -/

theorem isSpan_unique {τ : Epoch → Int} {ts : List Epoch} {f l f' l' : Option Epoch} {d d' : Int} (h : IsSpan τ ts f l d) (h' : IsSpan τ ts f' l' d') :
    f.map τ = f'.map τ ∧ l.map τ = l'.map τ := by
  rcases h with ⟨e, rfl, rfl, _⟩ | ⟨x, hx, y, hy, rfl, rfl, hall, _⟩
  · rcases h' with ⟨_, rfl, rfl, _⟩ | ⟨x, hx, _⟩
    · exact ⟨rfl, rfl⟩
    · rw [e] at hx; simp at hx
  · rcases h' with ⟨e, _⟩ | ⟨x', hx', y', hy', rfl, rfl, hall', _⟩
    · rw [e] at hx; simp at hx
    · have a1 := hall x' hx'
      have a2 := hall' x hx
      have a3 := hall y' hy'
      have a4 := hall' y hy
      simp only [Option.map_some, Option.some.injEq]
      omega

theorem packetTimes_proj {cds : Bool} {ps qs : List Packet} (h : proj ps = proj qs) : packetTimes cds ps = packetTimes cds qs := by
  have key : ∀ l : List Packet, packetTimes cds l = if cds then (proj l).filterMap (fun x => if x.1.hasSecondaryHeader then
      (if x.2.length < 6 + 8 then none
        else some (⟨.utc, cdsInstant (field (x.2.drop 6) 0 16) (field (x.2.drop 6) 16 32) (field (x.2.drop 6) 48 16)⟩ : Epoch)) else none) else [] := by
    intro l
    unfold packetTimes proj
    split
    · rw [List.filterMap_map]; rfl
    · rfl
  rw [key, key, h]

theorem ofApid_proj {ps qs : List Packet} (h : proj ps = proj qs) (a : U16) : proj (ofApid ps a) = proj (ofApid qs a) := by
  have key : ∀ l : List Packet, proj (ofApid l a) = (proj l).filter fun x => x.1.apid == a := by
    intro l
    unfold ofApid proj
    rw [List.filter_map]
    rfl
  rw [key, key, h]

theorem seqIds_proj {ps qs : List Packet} (h : proj ps = proj qs) : seqIds ps = seqIds qs := by
  have key : ∀ l : List Packet, seqIds l = (proj l).map fun x => x.1.sequenceId.toNat := by
    intro l
    unfold seqIds proj
    rw [List.map_map]; rfl
  rw [key, key, h]

/-- The packets of an APID among those that pass. -/
theorem ofApid_passing (incl excl : List U16) (ps : List Packet) (a : U16) :
    ofApid (ps.filter fun p => decide (ApidPasses incl excl p.header.apid)) a = if ApidPasses incl excl a then ofApid ps a else [] := by
  unfold ofApid
  rw [List.filter_filter]
  split
  · rename_i h
    refine List.filter_congr fun p _ => ?_
    by_cases e : p.header.apid = a
    · simp [e, h]
    · simp [e]
  · rename_i h
    rw [List.filter_eq_nil_iff]
    intro p _
    by_cases e : p.header.apid = a
    · simp [e, h]
    · simp [e]

theorem rows_congr {K V : Type} (F : V → Nat) (l : List (K × V)) : ∀ m : List (K × V), l.map (·.1) = m.map (·.1) → (∀ e' ∈ l, ∀ e ∈ m, e'.1 = e.1 → F e'.2 = F e.2) →
    l.map (fun e => F e.2) = m.map fun e => F e.2 := by
  induction l with
  | nil => intro m hk _; cases m <;> simp_all
  | cons x l ih =>
    intro m hk2 hF'
    cases m with
    | nil => simp at hk2
    | cons y m =>
      simp only [List.map_cons, List.cons.injEq] at hk2 ⊢
      exact ⟨hF' x (by simp) y (by simp) hk2.1, ih m hk2.2 fun e' he' e he => hF' e' (by simp [he']) e (by simp [he])⟩

theorem length_split {α : Type} (f : α → Bool) (l : List α) : l.length = (l.filter f).length + (l.filter fun x => !f x).length := by
  induction l with
  | nil => rfl
  | cons a l ih =>
    rw [List.filter_cons, List.filter_cons]
    cases f a <;> simp <;> omega

/-- A list is as long as the sum over the APIDs it contains. -/
theorem length_by_apid (as : List U16) : ∀ l : List Packet, as.Pairwise (· < ·) → (∀ p ∈ l, p.header.apid ∈ as) → l.length = (as.map fun a => (ofApid l a).length).sum := by
  induction as with
  | nil =>
    intro l _ hp
    cases l with
    | nil => rfl
    | cons p l => exact absurd (hp p (by simp)) (by simp)
  | cons x as ih =>
    intro l ha hp
    rw [List.pairwise_cons] at ha
    rw [List.map_cons, List.sum_cons]
    have ih' := ih (l.filter fun p => !(p.header.apid == x)) ha.2 (by
      intro p hpm
      obtain ⟨h1, h2⟩ := List.mem_filter.1 hpm
      rcases List.mem_cons.1 (hp p h1) with e | e
      · rw [e] at h2; simp at h2
      · exact e)
    have hcong : as.map (fun a => (ofApid (l.filter fun p => !(p.header.apid == x)) a).length) = as.map fun a => (ofApid l a).length := by
      refine List.map_congr_left ?_
      intro a he
      have hlt := ha.1 a he
      rw [BitVec.lt_def] at hlt
      unfold ofApid
      rw [List.filter_filter]
      refine congrArg List.length (List.filter_congr fun p _ => ?_)
      by_cases e' : p.header.apid = a
      · have : a ≠ x := by
          intro e2
          rw [e2] at hlt
          omega
        simp [e', this]
      · simp [e']
    rw [hcong] at ih'
    rw [← ih']
    unfold ofApid
    have := length_split (fun p : Packet => p.header.apid == x) l
    omega

theorem total_rows {τ : Epoch → Int} {cds : Bool} {l : List Packet} {j : Info.Info} (hj : Reports τ cds l j) : (j.apids.map fun e => e.2.total).sum = l.length := by
  have : j.apids.map (fun e => e.2.total) = (j.apids.map (·.1)).map fun a => (ofApid l a).length := by
    rw [List.map_map]
    refine List.map_congr_left ?_
    rintro ⟨a, s⟩ hm
    exact (hj.each a s hm).1
  rw [this]
  refine (length_by_apid _ l ?_ ?_).symm
  · rw [List.pairwise_map]; exact hj.ascending
  · intro p hp
    obtain ⟨s, hs⟩ := (hj.present p.header.apid).2 ⟨p, hp, rfl⟩
    exact List.mem_map.2 ⟨_, hs, rfl⟩

/-- C124: `info` on the output of `filter` with APID lists lists exactly the APIDs it listed before that pass, each with the same packet count, missing count, first and last time; the total is
the sum of their counts. -/
theorem C124_info (b : Build) (τ : Epoch → Int) (hτ : τ minEpoch < τ maxEpoch) (cds : Bool) (bs : List U8) (r r' : Reader) (hd : r.Delivers bs) (ps : List Packet)
    (hps : Decodes r ps) (incl excl : List U16) (hne : incl ≠ [] ∨ excl ≠ []) (w : List (List U8)) (h : Runs b τ r incl excl none none (.ok w)) (hd' : r'.Delivers w.flatten)
    (i i' : Info.Info) (hi : Info.Runs b τ cds r (some i)) (hi' : Info.Runs b τ cds r' (some i')) :
    (i'.apids.map (·.1) = (i.apids.map (·.1)).filter fun a => decide (ApidPasses incl excl a)) ∧
    (∀ a s s', (a, s) ∈ i.apids → (a, s') ∈ i'.apids → s'.total = s.total ∧ s'.missing = s.missing ∧ s'.first.map τ = s.first.map τ ∧ s'.last.map τ = s.last.map τ) ∧
    i'.summary.total = ((i.apids.filter fun e => decide (ApidPasses incl excl e.1)).map fun e => e.2.total).sum ∧
    i'.summary.missing = ((i.apids.filter fun e => decide (ApidPasses incl excl e.1)).map fun e => e.2.missing).sum := by
  obtain ⟨qs, hqs, hproj⟩ := C53_redecode b τ hτ bs r hd ps hps incl excl hne w h r' hd'
  obtain ⟨k, hk, hall⟩ := C56_info b τ cds bs r ps hd hps
  have e1 := Option.some.inj ((hall _).1 hi)
  subst e1
  obtain ⟨k', hk', hall'⟩ := C56_info b τ cds _ r' qs hd' hqs
  have e2 := Option.some.inj ((hall' _).1 hi')
  subst e2
  have hof : ∀ a, ApidPasses incl excl a → proj (ofApid qs a) = proj (ofApid ps a) := by
    intro a ha
    rw [ofApid_proj hproj a, ofApid_passing, if_pos ha]
  have hpass : ∀ a s', (a, s') ∈ i'.apids → ApidPasses incl excl a := by
    intro a s' hs
    obtain ⟨q, hq, ha⟩ := (hk'.present a).1 ⟨s', hs⟩
    have := List.mem_map_of_mem (f := fun p : Packet => (p.header, p.data)) hq
    rw [hproj] at this
    obtain ⟨p, hp, e⟩ := List.mem_map.1 this
    have h1 := (List.mem_filter.1 hp).2
    simp only [Prod.mk.injEq] at e
    rw [e.1, ha] at h1
    simpa using h1
  have hpres : ∀ a, (∃ s', (a, s') ∈ i'.apids) ↔ ApidPasses incl excl a ∧ ∃ s, (a, s) ∈ i.apids := by
    intro a
    constructor
    · rintro ⟨s', hs⟩
      have ha := hpass a s' hs
      refine ⟨ha, (hk.present a).2 ?_⟩
      obtain ⟨q, hq, hqa⟩ := (hk'.present a).1 ⟨s', hs⟩
      have : ofApid ps a ≠ [] := by
        intro e
        have := hof a ha
        rw [e] at this
        have hm : q ∈ ofApid qs a := List.mem_filter.2 ⟨hq, by simpa using hqa⟩
        have := List.map_eq_nil_iff.1 this
        rw [this] at hm
        simp at hm
      obtain ⟨p, hp⟩ := List.exists_mem_of_ne_nil _ this
      exact ⟨p, (List.mem_filter.1 hp).1, by simpa using (List.mem_filter.1 hp).2⟩
    · rintro ⟨ha, hs⟩
      refine (hk'.present a).2 ?_
      obtain ⟨p, hp, hpa⟩ := (hk.present a).1 hs
      have : ofApid qs a ≠ [] := by
        intro e
        have := hof a ha
        rw [e] at this
        have hm : p ∈ ofApid ps a := List.mem_filter.2 ⟨hp, by simpa using hpa⟩
        have := List.map_eq_nil_iff.1 this.symm
        rw [this] at hm
        simp at hm
      obtain ⟨q, hq⟩ := List.exists_mem_of_ne_nil _ this
      exact ⟨q, (List.mem_filter.1 hq).1, by simpa using (List.mem_filter.1 hq).2⟩
  have heach : ∀ a s s', (a, s) ∈ i.apids → (a, s') ∈ i'.apids →
      s'.total = s.total ∧ s'.missing = s.missing ∧ s'.first.map τ = s.first.map τ ∧ s'.last.map τ = s.last.map τ := by
    intro a s s' hs hs'
    obtain ⟨t1, t2, t3⟩ := hk.each a s hs
    obtain ⟨u1, u2, u3⟩ := hk'.each a s' hs'
    have hp := hof a (hpass a s' hs')
    refine ⟨?_, ?_, ?_⟩
    · rw [t1, u1]
      have := congrArg List.length hp
      simpa [proj] using this
    · rw [t2, u2, seqIds_proj hp]
    · rw [packetTimes_proj hp] at u3
      obtain ⟨v1, v2⟩ := isSpan_unique u3 t3
      exact ⟨v1, v2⟩
  have hkeys : i'.apids.map (·.1) = (i.apids.map (·.1)).filter fun a => decide (ApidPasses incl excl a) := by
    have s1 : (i'.apids.map (·.1)).Pairwise (· < ·) := by
      rw [List.pairwise_map]; exact hk'.ascending
    have s2 : ((i.apids.map (·.1)).filter fun a => decide (ApidPasses incl excl a)).Pairwise (· < ·) := by
      refine List.Pairwise.filter _ ?_
      rw [List.pairwise_map]; exact hk.ascending
    have hnd : ∀ l : List U16, l.Pairwise (· < ·) → l.Nodup := by
      intro l hl
      refine hl.imp ?_
      intro x y hxy e
      rw [e, BitVec.lt_def] at hxy
      omega
    refine List.Perm.eq_of_pairwise (le := (· < ·)) ?_ s1 s2 ?_
    · intro x y _ _ h1 h2
      rw [BitVec.lt_def] at h1 h2
      omega
    · rw [List.perm_ext_iff_of_nodup (hnd _ s1) (hnd _ s2)]
      intro a
      rw [List.mem_filter, List.mem_map, List.mem_map]
      constructor
      · rintro ⟨⟨a', s⟩, hm, rfl⟩
        obtain ⟨h1, s', h2⟩ := (hpres a').1 ⟨s, hm⟩
        exact ⟨⟨(a', s'), h2, rfl⟩, by simpa using h1⟩
      · rintro ⟨⟨⟨a', s⟩, hm, rfl⟩, hp⟩
        obtain ⟨s', h2⟩ := (hpres a').2 ⟨by simpa using hp, s, hm⟩
        exact ⟨(a', s'), h2, rfl⟩
  -- the rows, as lists
  have hrows : ∀ (F : Info.ISummary → Nat), (∀ a s s', (a, s) ∈ i.apids → (a, s') ∈ i'.apids → F s' = F s) →
      i'.apids.map (fun e => F e.2) = (i.apids.filter fun e => decide (ApidPasses incl excl e.1)).map fun e => F e.2 := by
    intro F hF
    have hk2 : i'.apids.map (·.1) = (i.apids.filter fun e => decide (ApidPasses incl excl e.1)).map (·.1) := by
      rw [hkeys, List.filter_map]; rfl
    have hF' : ∀ e' ∈ i'.apids, ∀ e ∈ i.apids.filter (fun e => decide (ApidPasses incl excl e.1)), e'.1 = e.1 → F e'.2 = F e.2 := by
      rintro ⟨a', s'⟩ h1 ⟨a, s⟩ h2 h3
      simp only at h3
      subst h3
      exact hF a' s s' (List.mem_filter.1 h2).1 h1
    exact rows_congr F _ _ hk2 hF'
  refine ⟨hkeys, heach, ?_, ?_⟩
  · rw [← hrows (·.total) fun a s s' h1 h2 => (heach a s s' h1 h2).1]
    rw [hk'.total, ← total_rows hk']
  · rw [← hrows (·.missing) fun a s s' h1 h2 => (heach a s s' h1 h2).2.1]
    exact hk'.missing

/-! ## C124, `diff` -/

theorem keys_proj (crc : List U8 → U32) {ps qs : List Packet} (h : proj ps = proj qs) : ps.map (packetKey crc) = qs.map (packetKey crc) := by
  have key : ∀ l : List Packet, l.map (packetKey crc) = (proj l).map fun x => ⟨x.1.apid, x.1.sequenceId, crc (x.2.drop 6)⟩ := by
    intro l
    unfold proj
    rw [List.map_map]; rfl
  rw [key, key, h]

/-- C124: `diff` between a file and what `filter` with APID lists made of it.  It never lists a packet on the right, and on the left exactly the dropped packets, with at most one left out; it
says that the files are the same exactly if nothing was dropped, or if one packet was and no remaining one has a greater key (the case that `diff` misses, C54). -/
theorem C124_diff (b : Build) (τ : Epoch → Int) (hτ : τ minEpoch < τ maxEpoch) (crc : List U8 → U32) (f f' : MFile) (hd : f.reader.Delivers f.content)
    (hd' : f'.reader.Delivers f'.content) (ps : List Packet) (hps : Decodes f.reader ps) (incl excl : List U16) (hne : incl ≠ [] ∨ excl ≠ []) (w : List (List U8))
    (h : Runs b τ f.reader incl excl none none (.ok w)) (hw : f'.content = w.flatten) (sc : Bool) (res : Diff.DResult) (hr : Diff.Runs crc (some f) (some f') sc res) :
    let kept := ps.filter fun p => decide (ApidPasses incl excl p.header.apid)
    let dropped := ps.filter fun p => !decide (ApidPasses incl excl p.header.apid)
    (∀ t lines, res = .differ t lines → (∀ k, Diff.Line.right k ∉ lines) ∧
      ∃ omitted : List Diff.Line, omitted.length ≤ 1 ∧ ∀ k, (lines ++ omitted).count (.left k) = (dropped.map (packetKey crc)).count k) ∧
    ((∃ t, res = .same t) ↔ ps ≠ [] ∧ (dropped = [] ∨ ∃ p, dropped = [p] ∧ Greatest (packetKey crc p) (kept.map (packetKey crc)))) := by
  intro kept dropped
  obtain ⟨qs, hqs, hproj⟩ := C53_redecode b τ hτ f.content f.reader hd ps hps incl excl hne w h f'.reader (hw ▸ hd')
  have hkq : qs.map (packetKey crc) = kept.map (packetKey crc) := keys_proj crc hproj
  have hperm : (ps.map (packetKey crc)).Perm (kept.map (packetKey crc) ++ dropped.map (packetKey crc)) := by
    rw [← List.map_append]
    exact ((List.filter_append_perm _ ps).map _).symm
  have hcount : ∀ k, (ps.map (packetKey crc)).count k = (kept.map (packetKey crc)).count k + (dropped.map (packetKey crc)).count k := by
    intro k
    rw [hperm.count_eq, List.count_append]
  have hlen : ps.length = kept.length + dropped.length := length_split _ ps
  have hqlen : qs.length = kept.length := by
    have := congrArg List.length hproj
    simpa using this
  constructor
  · intro t lines he
    subst he
    obtain ⟨_, omitted, ho, hall⟩ := C54_lines crc f f' ps qs sc t lines hd hd' hps hqs hr
    refine ⟨?_, omitted, ho, ?_⟩
    · intro k hk
      have h1 := (hall k).2
      rw [hkq, hcount] at h1
      have h2 : 0 < lines.count (.right k) := List.count_pos_iff.2 hk
      rw [List.count_append] at h1
      omega
    · intro k
      have h1 := (hall k).1
      rw [hkq, hcount] at h1
      omega
  · rw [C54_partial crc f f' ps qs sc res hd hd' hps hqs hr]
    rw [hkq]
    have hnil : (ps ≠ [] ∨ qs ≠ []) ↔ ps ≠ [] := by
      constructor
      · rintro (h | h)
        · exact h
        · rintro rfl
          have h0 : kept.length = 0 := rfl
          exact h (List.eq_nil_of_length_eq_zero (by omega))
      · exact .inl
    rw [hnil]
    refine and_congr_right fun hpn => ?_
    constructor
    · rintro (hp | ⟨k, hg, hp⟩ | ⟨k, hg, hp⟩)
      · left
        have := hp.length_eq
        simp only [List.length_map] at this
        exact List.eq_nil_of_length_eq_zero (by omega)
      · right
        have := hp.length_eq
        simp only [List.length_map, List.length_cons] at this
        obtain ⟨p, hp1⟩ := List.length_eq_one_iff.1 (show dropped.length = 1 by omega)
        refine ⟨p, hp1, ?_⟩
        have h2 : packetKey crc p = k := by
          have h3 := hperm.symm.trans hp
          rw [hp1, List.map_cons, List.map_nil] at h3
          have h4 : (packetKey crc p :: kept.map (packetKey crc)).Perm (k :: kept.map (packetKey crc)) :=
            (List.perm_append_comm (l₁ := [packetKey crc p])).trans h3
          have h5 := h4.count_eq k
          have h6 := h4.count_eq (packetKey crc p)
          rw [List.count_cons, List.count_cons] at h5 h6
          by_cases e : packetKey crc p = k
          · exact e
          · simp [e] at h5
        rw [h2]; exact hg
      · have := hp.length_eq
        simp only [List.length_map, List.length_cons] at this
        omega
    · rintro (h0 | ⟨p, h0, hg⟩)
      · left
        have := hperm
        rw [h0, List.map_nil, List.append_nil] at this
        exact this
      · right; left
        refine ⟨_, hg, ?_⟩
        have := hperm
        rw [h0, List.map_cons, List.map_nil] at this
        exact this.trans (List.perm_append_comm (l₂ := [packetKey crc p]))

/-! ## C125 -/

section
variable {Path : Type} [DecidableEq Path]

/-- C125: a file is split by `filter --include` and `filter --exclude` with the same APIDs; merging the two parts in its place writes the same as merging the file, with any options, when that
merge is determined and no groups are joined by the filters (`KeepsApart`; otherwise see C123). -/
theorem C125_split (b : Build) (τ : Epoch → Int) (hτ : τ minEpoch < τ maxEpoch) (m : Merger Path) (files : Path → Option MFile) (hfiles : Readable files) (l : List U16) (hl : l ≠ [])
    (p q1 q2 : Path) (others : List Path) (f f1 f2 : MFile) (hpaths : m.paths = p :: others) (hf : files p = some f) (hf1 : files q1 = some f1) (hf2 : files q2 = some f2)
    (w1 w2 : List (List U8)) (h1 : Runs b τ f.reader l [] none none (.ok w1)) (h2 : Runs b τ f.reader [] l none none (.ok w2)) (hw1 : f1.content = w1.flatten)
    (hw2 : f2.content = w2.flatten)
    (hcopy : ∀ x y, Inputs b τ m files x → Inputs b τ m files y → x.key τ = y.key τ → x.bytes = y.bytes)
    (hsep : ∀ x y, Inputs b τ m files x → Inputs b τ m files y → τ x.time = τ y.time → rank m x.apid = rank m y.apid → x.key τ = y.key τ)
    (gs : List PacketGroup) (hgs : FileGroups f gs) (hk1 : KeepsApart l gs) (rest : List U16) (hrest : ∀ a, a ∈ rest ↔ a ∉ l) (hk2 : KeepsApart rest gs)
    (out out' : List (List U8)) (h : Merges b τ m files (.ok out)) (h' : Merges b τ { m with paths := q1 :: q2 :: others } files (.ok out')) : out' = out := by
  obtain ⟨g1, hg1, e1⟩ := filtered_groups hτ (hfiles _ _ hf) (hfiles _ _ hf1) (incl := l) (excl := []) (sel := l) (.inl hl) (by intro a; simp [ApidPasses, hl]) h1 hw1 hgs hk1
  obtain ⟨g2, hg2, e2⟩ := filtered_groups hτ (hfiles _ _ hf) (hfiles _ _ hf2) (incl := []) (excl := l) (sel := rest) (.inr hl) (by intro a; simp [ApidPasses, hrest]) h2 hw2 hgs hk2
  obtain ⟨es, hm⟩ := C21_merge b τ m files hfiles out h
  obtain ⟨es', hm'⟩ := C21_merge b τ _ files hfiles out' h'
  refine (isMerge_same (m := m) (m' := { m with paths := q1 :: q2 :: others }) (fun _ => rfl) ?_ ?_ hcopy hsep out out' es es' hm hm').symm
  · rintro ⟨q, g, t⟩ ⟨hq, f0, gs0, a1, a2, a3, a4⟩
    simp only at hq a1 a3 a4
    rw [hpaths] at hq
    rcases List.mem_cons.1 hq with rfl | hq
    · rw [hf] at a1
      cases a1
      have := fileGroups_unique a2 hgs
      subst this
      by_cases hin : g.apid ∈ l
      · have hmem : g ∈ gs0.filter fun g => decide (g.apid ∈ l) := List.mem_filter.2 ⟨a3, by simpa using hin⟩
        have := List.mem_map_of_mem (f := fun k : PacketGroup => k.packets.map fun p => (p.header, p.data)) hmem
        rw [← e1] at this
        obtain ⟨g', hg', e⟩ := List.mem_map.1 this
        exact ⟨⟨q1, g', t⟩, ⟨by simp, f1, g1, hf1, hg1, hg', eligible_congr e (fun _ _ h => h) a4⟩, (entry_congr τ q1 t e).1⟩
      · have hmem : g ∈ gs0.filter fun g => decide (g.apid ∈ rest) := List.mem_filter.2 ⟨a3, by simpa [hrest] using hin⟩
        have := List.mem_map_of_mem (f := fun k : PacketGroup => k.packets.map fun p => (p.header, p.data)) hmem
        rw [← e2] at this
        obtain ⟨g', hg', e⟩ := List.mem_map.1 this
        exact ⟨⟨q2, g', t⟩, ⟨by simp, f2, g2, hf2, hg2, hg', eligible_congr e (fun _ _ h => h) a4⟩, (entry_congr τ q2 t e).1⟩
    · exact ⟨⟨q, g, t⟩, ⟨by simp [hq], f0, gs0, a1, a2, a3, a4⟩, rfl⟩
  · rintro ⟨q, g', t⟩ ⟨hq, f0, gs0, a1, a2, a3, a4⟩
    simp only at hq a1 a3 a4
    have back : ∀ (g : PacketGroup), g ∈ gs → (g'.packets.map fun p => (p.header, p.data)) = (g.packets.map fun p => (p.header, p.data)) →
        ∃ e, Inputs b τ m files e ∧ (⟨q, g', t⟩ : Entry Path).key τ = e.key τ ∧ (⟨q, g', t⟩ : Entry Path).bytes = e.bytes := by
      intro g hg e
      have := entry_congr τ p t (g := g) (g' := g') e
      exact ⟨⟨p, g, t⟩, ⟨by simp [hpaths], f, gs, hf, hgs, hg, eligible_congr (g := g') (g' := g) e.symm (fun _ _ h => h) a4⟩, this.1, this.2⟩
    rcases List.mem_cons.1 hq with rfl | hq
    · rw [hf1] at a1
      cases a1
      have := fileGroups_unique a2 hg1
      subst this
      have := List.mem_map_of_mem (f := fun k : PacketGroup => k.packets.map fun p => (p.header, p.data)) a3
      rw [e1] at this
      obtain ⟨g, hg, e⟩ := List.mem_map.1 this
      exact back g (List.mem_filter.1 hg).1 e.symm
    rcases List.mem_cons.1 hq with rfl | hq
    · rw [hf2] at a1
      cases a1
      have := fileGroups_unique a2 hg2
      subst this
      have := List.mem_map_of_mem (f := fun k : PacketGroup => k.packets.map fun p => (p.header, p.data)) a3
      rw [e2] at this
      obtain ⟨g, hg, e⟩ := List.mem_map.1 this
      exact back g (List.mem_filter.1 hg).1 e.symm
    · exact ⟨⟨q, g', t⟩, ⟨by simp [hpaths, hq], f0, gs0, a1, a2, a3, a4⟩, rfl, rfl⟩

end

/-! ## Concrete cases -/

namespace AgreeEx
open FMEx

/-- `info` on five packets of two APIDs, and on the four of APID 1. -/
example (b : Build) : ∃ i i', Info.Runs b MergeEx.tau true (MergeEx.file whole).reader (some i) ∧ Info.Runs b MergeEx.tau true (MergeEx.file (late ++ early)).reader (some i') ∧
    i'.apids.map (·.1) = (i.apids.map (·.1)).filter fun a => decide (ApidPasses [1#16] [] a) := by
  obtain ⟨i, _, h⟩ := C56_info b MergeEx.tau true _ _ _ (FuseEx.delivers (l := whole) (by decide)) decodes
  obtain ⟨ps, s, _, hps, _⟩ := groups'
  obtain ⟨i', _, h'⟩ := C56_info b MergeEx.tau true _ _ _ (FuseEx.delivers (l := late ++ early) (by decide)) ⟨s, hps⟩
  exact ⟨i, i', (h _).2 rfl, (h' _).2 rfl, (C124_info b MergeEx.tau (by decide) true whole (MergeEx.file whole).reader (MergeEx.file (late ++ early)).reader
    (FuseEx.delivers (l := whole) (by decide)) _ decodes [1#16] [] (by simp) _ (FuseEx.filterRun b) (FuseEx.delivers (l := late ++ early) (by decide)) i i'
    ((h _).2 rfl) ((h' _).2 rfl)).1⟩

/-- `diff` of the same two files: the one packet of APID 2 was dropped, its key is the greatest, and `diff` says that the files are the same. -/
example (b : Build) (crc : List U8 → U32) (sc : Bool) (res : Diff.DResult) (h : Diff.Runs crc (some (MergeEx.file whole)) (some (MergeEx.file (late ++ early))) sc res) :
    ∃ t, res = .same t := by
  refine (C124_diff b MergeEx.tau (by decide) crc (MergeEx.file whole) (MergeEx.file (late ++ early)) (FuseEx.delivers (by decide)) (FuseEx.delivers (by decide)) _ decodes
    [1#16] [] (by simp) _ (FuseEx.filterRun b) (by decide) sc res h).2.2 ⟨by simp, .inr ⟨pkt 2#8 2#8 0xc0#8 0#8 28, by decide +kernel, ?_⟩⟩
  intro k hk
  simp only [show (List.filter (fun p : Packet => decide (ApidPasses [1#16] [] p.header.apid)) [pkt 2#8 1#8 0x40#8 0#8 0, pkt 2#8 1#8 0x80#8 1#8 14, pkt 2#8 2#8 0xc0#8 0#8 28, pkt 1#8 1#8 0x40#8 2#8 42, pkt 1#8 1#8 0x80#8 3#8 56])
    = [pkt 2#8 1#8 0x40#8 0#8 0, pkt 2#8 1#8 0x80#8 1#8 14, pkt 1#8 1#8 0x40#8 2#8 42, pkt 1#8 1#8 0x80#8 3#8 56] by decide +kernel] at hk
  simp only [List.map_cons, List.map_nil, List.mem_cons, List.not_mem_nil, or_false] at hk
  rcases hk with rfl | rfl | rfl | rfl <;> exact .inl (show (1#16 : U16) < 2#16 by decide)

/-- A file with a group of APID 1 and an earlier packet of APID 2, its two parts, and the merges. -/
def first : List U8 := bytes 1#8 2#8 0xc0#8 0#8
def gFirst (off : Nat) : PacketGroup := ⟨2#16, [pkt 1#8 2#8 0xc0#8 0#8 off]⟩
def files : Nat → Option MFile
  | 0 => some (MergeEx.file (late ++ first))
  | 1 => some (MergeEx.file late)
  | 2 => some (MergeEx.file first)
  | _ => none

theorem readable : Readable files := by
  intro p f hf
  match p, hf with
  | 0, hf => cases hf; exact FuseEx.delivers (by decide)
  | 1, hf => cases hf; exact FuseEx.delivers (by decide)
  | 2, hf => cases hf; exact FuseEx.delivers (by decide)

theorem decodes0 : Decodes (MergeEx.file (late ++ first)).reader [pkt 2#8 1#8 0x40#8 0#8 0, pkt 2#8 1#8 0x80#8 1#8 14, pkt 1#8 2#8 0xc0#8 0#8 28] :=
  ⟨_, .step rfl (.step rfl (.step rfl (.done rfl)))⟩
theorem groups0 : FileGroups (MergeEx.file (late ++ first)) [gLate, gFirst 28] :=
  ⟨[pkt 2#8 1#8 0x40#8 0#8 0, pkt 2#8 1#8 0x80#8 1#8 14, pkt 1#8 2#8 0xc0#8 0#8 28], _, _, .step rfl (.step rfl (.step rfl (.done rfl))), .step rfl (.step rfl (.done rfl))⟩
theorem groups1 : FileGroups (MergeEx.file late) [gLate] := ⟨gLate.packets, _, _, .step rfl (.step rfl (.done rfl)), .step rfl (.done rfl)⟩
theorem groups2 : FileGroups (MergeEx.file first) [gFirst 0] := ⟨(gFirst 0).packets, _, _, .step rfl (.done rfl), .step rfl (.done rfl)⟩

theorem include1 (b : Build) : Runs b MergeEx.tau (MergeEx.file (late ++ first)).reader [1#16] [] none none (.ok [bytes 2#8 1#8 0x40#8 0#8, bytes 2#8 1#8 0x80#8 1#8]) :=
  (C53_untimed b MergeEx.tau (by decide) _ _ decodes0 [1#16] [] (by simp) _).2 (by decide +kernel)
theorem exclude1 (b : Build) : Runs b MergeEx.tau (MergeEx.file (late ++ first)).reader [] [1#16] none none (.ok [first]) :=
  (C53_untimed b MergeEx.tau (by decide) _ _ decodes0 [] [1#16] (by simp) _).2 (by decide +kernel)

def pFirst (q off : Nat) : Ptr Nat := ⟨q, off, 14, time 1, 2#16, 0#16, 2⟩

theorem mergesWhole (b : Build) : Merges b MergeEx.tau MergeEx.merger files (.ok [first, late]) := by
  have hi : Index b MergeEx.tau MergeEx.merger files [0] [] (some [pLate, pFirst 0 28]) :=
    .step rfl (MSEx.pointers_of groups0 (ps := [pLate, pFirst 0 28]) (by cases b with | mk o => cases o <;> rfl)) (List.Perm.refl _) (List.Perm.refl _)
      (by rw [show Ptr.union MergeEx.tau [] [pLate, pFirst 0 28] = [pLate, pFirst 0 28] by rfl]; exact .done)
  have := Merges.finished (m := MergeEx.merger) (files := files) (by intro p hp; simp [MergeEx.merger, Merger.new] at hp; subst hp; simp [files]) (List.Perm.refl _) hi
    (List.Perm.swap _ _ _)
  rwa [List.mergeSort_of_pairwise (by decide)] at this

theorem mergesParts (b : Build) : Merges b MergeEx.tau { MergeEx.merger with paths := [1, 2] } files (.ok [first, late]) := by
  have hi : Index b MergeEx.tau { MergeEx.merger with paths := [1, 2] } files [1, 2] [] (some [{ pLate with path := 1 }, pFirst 2 0]) :=
    .step rfl (MSEx.pointers_of groups1 (ps := [{ pLate with path := 1 }]) (by cases b with | mk o => cases o <;> rfl)) (List.Perm.refl _) (List.Perm.refl _)
      (by
        rw [show Ptr.union MergeEx.tau [] [{ pLate with path := 1 }] = [{ pLate with path := 1 }] by rfl]
        exact .step rfl (MSEx.pointers_of groups2 (ps := [pFirst 2 0]) (by cases b with | mk o => cases o <;> rfl)) (List.Perm.refl _) (List.Perm.refl _)
          (by rw [show Ptr.union MergeEx.tau [{ pLate with path := 1 }] [pFirst 2 0] = [{ pLate with path := 1 }, pFirst 2 0] by rfl]; exact .done))
  have := Merges.finished (m := { MergeEx.merger with paths := [1, 2] }) (files := files) (by
      intro p hp
      simp at hp
      rcases hp with rfl | rfl <;> simp [files]) (List.Perm.refl _) hi (List.Perm.swap _ _ _)
  rwa [List.mergeSort_of_pairwise (by decide)] at this

theorem inputs {b : Build} {e : Entry Nat} (h : Inputs b MergeEx.tau MergeEx.merger files e) : e = ⟨0, gLate, time 2⟩ ∨ e = ⟨0, gFirst 28, time 1⟩ := by
  obtain ⟨p, g, t⟩ := e
  obtain ⟨hp, f, gs, hf, hgs, hg, he⟩ := h
  simp only at hp hf hg he
  have hp : p = 0 := by simpa [MergeEx.merger, Merger.new] using hp
  subst hp
  have : f = MergeEx.file (late ++ first) := (Option.some.inj (show some (MergeEx.file (late ++ first)) = some f from hf)).symm
  subst this
  have := Merger.fileGroups_unique hgs groups0
  subst this
  obtain ⟨fp, rest, ep, _, hd, _, _, hs⟩ := he
  simp only [List.mem_cons, List.not_mem_nil, or_false] at hg
  rcases hg with rfl | rfl
  · have e1 : pkt 2#8 1#8 0x40#8 0#8 0 = fp := (List.cons.inj ep).1
    subst e1
    have := (decLate b 0#8 0x40#8 0).symm.trans hd
    simp only [Outcome.ret.injEq, Except.ok.injEq] at this
    exact .inl (by rw [this])
  · have e1 : pkt 1#8 2#8 0xc0#8 0#8 28 = fp := (List.cons.inj ep).1
    subst e1
    have h1 : MergeEx.dec.decode b (pkt 1#8 2#8 0xc0#8 0#8 28) = Timecode.decode b (.cds 2 2) [1#8, 0#8, 0#8, 0#8, 0#8, 0#8, 0#8, 0#8] := rfl
    have h2 : Timecode.decode b (.cds 2 2) [1#8, 0#8, 0#8, 0#8, 0#8, 0#8, 0#8, 0#8] = .ret (.ok (time 1)) := by cases b with | mk o => cases o <;> decide
    have := (h1.trans h2).symm.trans hd
    simp only [Outcome.ret.injEq, Except.ok.injEq] at this
    exact .inr (by rw [this])

example (b : Build) (out out' : List (List U8)) (h : Merges b MergeEx.tau MergeEx.merger files (.ok out))
    (h' : Merges b MergeEx.tau { MergeEx.merger with paths := [1, 2] } files (.ok out')) : out' = out := by
  have apart : ∀ sel, KeepsApart sel [gLate, gFirst 28] := by
    intro sel l g h r he
    by_cases hin : 1#16 ∈ sel ∧ 2#16 ∈ sel
    · right
      have hf : [gLate, gFirst 28].filter (fun g => decide (g.apid ∈ sel)) = [gLate, gFirst 28] := by simp [gLate, gFirst, hin.1, hin.2]
      rw [hf] at he
      match l, he with
      | [], he => cases he; decide
      | _ :: l, he =>
        have := congrArg List.length he
        simp at this
        omega
    · have := congrArg List.length he
      have hle : ([gLate, gFirst 28].filter (fun g => decide (g.apid ∈ sel))).length ≤ 1 := by
        rw [List.filter_cons, List.filter_cons, List.filter_nil]
        by_cases h1 : 1#16 ∈ sel
        · have h2 : 2#16 ∉ sel := fun h2 => hin ⟨h1, h2⟩
          simp [gLate, gFirst, h1, h2]
        · by_cases h2 : 2#16 ∈ sel <;> simp [gLate, gFirst, h1, h2]
      simp only [List.length_append, List.length_cons] at this
      omega
  exact C125_split b MergeEx.tau (by decide) MergeEx.merger files readable [1#16] (by decide) 0 1 2 [] _ _ _ rfl rfl rfl rfl _ _ (include1 b) (exclude1 b) (by decide) (by decide)
    (by
      intro x y hx hy hk
      rcases inputs hx with rfl | rfl <;> rcases inputs hy with rfl | rfl
      all_goals first | rfl | exact absurd hk (by decide))
    (by
      intro x y hx hy ht hr
      rcases inputs hx with rfl | rfl <;> rcases inputs hy with rfl | rfl
      all_goals first | rfl | exact absurd ht (by decide))
    _ groups0 (apart _) ((List.range 65536).map (BitVec.ofNat 16) |>.filter (· ≠ 1#16)) (by
      intro a
      simp only [List.mem_filter, List.mem_map, List.mem_range, List.mem_cons, List.not_mem_nil, or_false, decide_not]
      constructor
      · rintro ⟨_, h⟩; simpa using h
      · intro h; exact ⟨⟨a.toNat, a.isLt, by simp⟩, by simpa using h⟩) (apart _) out out' h h'

end AgreeEx

end Ccsds
