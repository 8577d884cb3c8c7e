import Verif.Props.FilterMerge
import Verif.Props.Commands
/-!
# C94, C95: merging again, and merging in steps
-/
namespace Ccsds
open Spec Merger Cmd
variable {Path : Type} [DecidableEq Path]

/-- Header and data of each packet (all but its position). -/
abbrev proj (ps : List Packet) : List (PrimaryHeader × List U8) := ps.map fun p => (p.header, p.data)

/-- Packets are determined by their bytes. -/
theorem wire_inj (ps qs : List Packet) (hp : ∀ p ∈ ps, p.WellFormed ∧ p.data.length ≤ 65536) (hq : ∀ p ∈ qs, p.WellFormed ∧ p.data.length ≤ 65536)
    (h : wire ps = wire qs) : proj ps = proj qs := by
  by_cases he : wire ps = []
  · have : ∀ l : List Packet, (∀ p ∈ l, p.WellFormed ∧ p.data.length ≤ 65536) → wire l = [] → l = [] := by
      intro l hl hw
      cases l with
      | nil => rfl
      | cons p l =>
        have h1 := (hl p (by simp)).1.1
        have h2 := packetLen_ge p.data
        simp only [wire, List.flatMap_cons, List.append_eq_nil_iff] at hw
        rw [hw.1] at h1
        rw [hw.1] at h2
        simp at h1
        omega
    rw [this ps hp he, this qs hq (h ▸ he)]
  · have hd : (Reader.ofBytes (wire ps)).Delivers (wire ps ++ []) := by
      rw [List.append_nil]
      refine ⟨?_, by simp [evBytes, Ev.bytes, Reader.ofBytes], rfl⟩
      intro e hm
      simp only [Reader.ofBytes, List.mem_cons, List.not_mem_nil, or_false] at hm
      subst hm
      exact .inl ⟨wire ps, he, rfl⟩
    obtain ⟨a, s, c1, c2, _⟩ := C05_roundtrip ps [] _ hp (by simp [packetLen]) (by simp) hd
    obtain ⟨a', s', c1', c2', _⟩ := C05_roundtrip qs [] (Reader.ofBytes (wire ps)) hq (by simp [packetLen]) (by simp) (h ▸ hd)
    have := map_ok_inj (c1.unique c1').1
    subst this
    exact c2.symm.trans c2'

/-- The packets of a group of a file are whole packets of at most 65536 bytes, of one APID, and a group that begins with an unsegmented packet has one packet. -/
theorem group_facts {f : MFile} (hd : f.reader.Delivers f.content) {gs : List PacketGroup} (h : FileGroups f gs) {g : PacketGroup} (hg : g ∈ gs) :
    (∀ p ∈ g.packets, p.WellFormed ∧ p.data.length ≤ 65536) ∧
      ∃ p rest, g.packets = p :: rest ∧ (p.isStandalone = true → rest = []) ∧ ∀ q ∈ rest, q.header.apid = p.header.apid := by
  obtain ⟨ps, s, s', c1, c2⟩ := h
  have hcut := (C12_exact ps _).1 ⟨gs, s', c2, rfl⟩
  constructor
  · intro p hp
    refine decodes_small hd ⟨s, c1⟩ p ?_
    rw [← hcut.1]
    exact List.mem_flatten.2 ⟨_, List.mem_map_of_mem hg, hp⟩
  · have := hcut.2
    clear hcut c2
    induction gs with
    | nil => simp at hg
    | cons a gs ih =>
      obtain ⟨⟨p, rest, e, h1, h2, _⟩, h3⟩ := this
      rcases List.mem_cons.1 hg with rfl | hg
      · exact ⟨p, rest, e, h1, h2⟩
      · exact ih hg h3

/-- A list of packets as it can be a group. -/
def Groupable (l : List Packet) : Prop := ∃ p rest, l = p :: rest ∧ (p.isStandalone = true → rest = []) ∧ ∀ q ∈ rest, q.header.apid = p.header.apid

/-- Cutting a sequence of groups again may join neighbours, but nothing else. -/
theorem cut_again (n : Nat) : ∀ ls : List (List Packet), ls.length ≤ n → (∀ l ∈ ls, Groupable l) →
    ∃ blocks : List (List (List Packet)), blocks.flatten = ls ∧ (∀ b ∈ blocks, b ≠ []) ∧ CutWhereApidChanges (blocks.map List.flatten) := by
  induction n with
  | zero => intro ls h _; exact ⟨[], by rw [List.eq_nil_of_length_eq_zero (by omega : ls.length = 0)]; rfl, by simp, trivial⟩
  | succ n ih =>
    intro ls hlen hls
    cases ls with
    | nil => exact ⟨[], rfl, by simp, trivial⟩
    | cons l ls =>
      obtain ⟨p, rest, rfl, h1, h2⟩ := hls l (by simp)
      by_cases hs : p.isStandalone = true
      · obtain ⟨bl, e1, e2, e3⟩ := ih ls (by simpa using hlen) (fun x hx => hls x (by simp [hx]))
        refine ⟨[p :: rest] :: bl, by simp [e1], by simpa using e2, ⟨p, rest, by simp, h1, h2, fun h => by rw [hs] at h; cases h⟩, e3⟩
      · let same : List Packet → Bool := fun l => decide (l.head?.map (·.header.apid) = some p.header.apid)
        have hsplit : ls.takeWhile same ++ ls.dropWhile same = ls := List.takeWhile_append_dropWhile
        obtain ⟨bl, e1, e2, e3⟩ := ih (ls.dropWhile same) (by
          have := congrArg List.length hsplit
          simp only [List.length_append] at this
          simp only [List.length_cons] at hlen
          omega) (fun x hx => hls x (by
            have : x ∈ ls := by rw [← hsplit]; exact List.mem_append_right _ hx
            simp [this]))
        refine ⟨((p :: rest) :: ls.takeWhile same) :: bl, by simp [e1, hsplit], ?_, ⟨p, rest ++ (ls.takeWhile same).flatten, by simp, fun h => absurd h hs, ?_, ?_⟩, e3⟩
        · intro b hb
          rcases List.mem_cons.1 hb with rfl | hb
          · simp
          · exact e2 b hb
        · intro q hq
          rcases List.mem_append.1 hq with hq | hq
          · exact h2 q hq
          · obtain ⟨l, hl, hq⟩ := List.mem_flatten.1 hq
            have hl' : same l = true := by
              have := List.all_takeWhile (p := same) (l := ls)
              rw [List.all_eq_true] at this
              exact this l hl
            have hmem : l ∈ ls := by rw [← hsplit]; exact List.mem_append_left _ hl
            obtain ⟨p', rest', rfl, _, h2'⟩ := hls l (by simp [hmem])
            have hp' : p'.header.apid = p.header.apid := by simpa [same] using hl'
            rcases List.mem_cons.1 hq with rfl | hq
            · exact hp'
            · rw [h2' q hq, hp']
        · intro _ k hk
          cases bl with
          | nil => simp at hk
          | cons b bl =>
            simp only [List.map_cons, List.head?_cons, Option.mem_def, Option.some.injEq] at hk
            subst hk
            cases b with
            | nil => exact absurd rfl (e2 [] (by simp))
            | cons l b =>
              have hl : ls.dropWhile same = l :: (b ++ bl.flatten) := by rw [← e1]; simp
              have hn : same l = false := by
                have := List.head?_dropWhile_not same ls
                rw [hl] at this
                simpa using this
              have hmem : l ∈ ls := by rw [← hsplit, hl]; simp
              obtain ⟨p', rest', rfl, _, _⟩ := hls l (by simp [hmem])
              simpa [same] using hn

theorem split_map {α β : Type} (f : α → β) (ls : List (List β)) : ∀ xs : List α, xs.map f = ls.flatten →
    ∃ ys : List (List α), ys.flatten = xs ∧ ys.map (List.map f) = ls := by
  induction ls with
  | nil => intro xs h; exact ⟨[], by simpa using h.symm, rfl⟩
  | cons l ls ih =>
    intro xs h
    rw [List.flatten_cons, List.map_eq_append_iff] at h
    obtain ⟨x1, x2, rfl, h1, h2⟩ := h
    obtain ⟨ys, e1, e2⟩ := ih x2 h2
    exact ⟨x1 :: ys, by simp [e1], by simp [h1, e2]⟩

theorem nonempty_blocks {α : Type} (bs : List (List α)) (h : ∀ b ∈ bs, b ≠ []) : ∃ xs : List (α × List α), bs = xs.map fun x => x.1 :: x.2 := by
  induction bs with
  | nil => exact ⟨[], rfl⟩
  | cons b bs ih =>
    obtain ⟨xs, rfl⟩ := ih (fun c hc => h c (by simp [hc]))
    cases b with
    | nil => exact absurd rfl (h [] (by simp))
    | cons a b => exact ⟨(a, b) :: xs, rfl⟩

/-- What of an entry decides whether, and where, it is written. -/
abbrev face (τ : Epoch → Int) (e : Entry Path) : Epoch × (Option (U16 × U16) × Int) × U16 × Option (PrimaryHeader × List U8) :=
  (e.time, e.key τ, e.apid, e.group.packets.head?.map fun p => (p.header, p.data))

omit [DecidableEq Path] in
theorem candidates (τ : Epoch → Int) (p' : Path) (xs : List (Entry Path × List (Entry Path))) : ∀ gs' : List PacketGroup,
    gs'.map (fun g => proj g.packets) = xs.map (fun x => proj (x.1.group.packets ++ x.2.flatMap fun e => e.group.packets)) →
    (∀ x ∈ xs, x.1.group.packets ≠ []) →
    ∃ cand : List (Entry Path), cand.map (·.group) = gs' ∧ (∀ c ∈ cand, c.path = p') ∧ cand.map (face τ) = xs.map (fun x => face τ x.1) ∧
      cand.map Entry.bytes = xs.map fun x => x.1.bytes ++ x.2.flatMap Entry.bytes := by
  induction xs with
  | nil => intro gs' h _; simp at h; subst h; exact ⟨[], rfl, by simp, rfl, rfl⟩
  | cons x xs ih =>
    intro gs' h hne
    cases gs' with
    | nil => simp at h
    | cons g gs' =>
      rw [List.map_cons, List.map_cons, List.cons.injEq] at h
      obtain ⟨cand, e1, e2, e3, e4⟩ := ih gs' h.2 (fun y hy => hne y (by simp [hy]))
      obtain ⟨e, es⟩ := x
      obtain ⟨pa, g0, t⟩ := e
      have hb : g.packets.flatMap Packet.data = g0.packets.flatMap Packet.data ++ es.flatMap Entry.bytes := by
        have := congrArg (fun l => (List.map Prod.snd l).flatten) h.1
        simp only [proj, List.map_map, Function.comp_def, List.map_append, List.flatten_append, List.map_flatMap] at this
        rw [List.flatMap_def, this, List.flatMap_def]
        congr 1
        simp only [List.flatMap_def, List.flatten_flatten, List.map_map, Function.comp_def]
        have : (fun x : Entry Path => (List.map (fun x => x.data) x.group.packets).flatten) = Entry.bytes := by
          funext x; rw [Entry.bytes, List.flatMap_def]
        rw [this]
      refine ⟨⟨p', g, t⟩ :: cand, by simp [e1], ?_, ?_, ?_⟩
      · intro c hc
        rcases List.mem_cons.1 hc with rfl | hc
        · rfl
        · exact e2 c hc
      · rw [List.map_cons, List.map_cons, e3]
        congr 1
        have h1 := h.1
        have hn := hne (⟨pa, g0, t⟩, es) (by simp)
        simp only at h1 hn
        cases hp : g0.packets with
        | nil => exact absurd hp hn
        | cons p rest =>
          rw [hp] at h1
          cases hq : g.packets with
          | nil => rw [hq] at h1; simp at h1
          | cons q rest' =>
            rw [hq] at h1
            simp only [proj, List.cons_append, List.map_cons, List.cons.injEq, Prod.mk.injEq] at h1
            simp [face, Entry.key, Entry.apid, hp, hq, h1.1.1, h1.1.2]
      · rw [List.map_cons, List.map_cons, e4]
        congr 1

theorem time_unique {b : Build} {τ : Epoch → Int} {d : TimecodeDecoder} {lo hi : Epoch} {sel sel' : List U16} {g : PacketGroup} {t t' : Epoch}
    (h : Eligible b τ d lo hi sel g t) (h' : Eligible b τ d lo hi sel' g t') : t = t' := by
  obtain ⟨p, r, e, _, h1, _⟩ := h
  obtain ⟨p', r', e', _, h1', _⟩ := h'
  rw [e, List.cons.injEq] at e'
  obtain ⟨rfl, _⟩ := e'
  rw [h1] at h1'
  simpa using h1'

theorem inj_of_nodup_map {α β : Type} (f : α → β) (l : List α) (h : (l.map f).Nodup) : ∀ x ∈ l, ∀ y ∈ l, f x = f y → x = y := by
  induction l with
  | nil => simp
  | cons a l ih =>
    rw [List.map_cons, List.nodup_cons] at h
    intro x hx y hy hxy
    rcases List.mem_cons.1 hx with hx' | hx' <;> rcases List.mem_cons.1 hy with hy' | hy'
    · rw [hx', hy']
    · exact absurd (List.mem_map.2 ⟨y, hy', by rw [← hxy, hx']⟩) h.1
    · exact absurd (List.mem_map.2 ⟨x, hx', by rw [hxy, hy']⟩) h.1
    · exact ih h.2 x hx' y hy' hxy

/-! ## C94  Merging again -/

/-- C94: merging the file that a merge wrote, with the same options, writes the same file again, under every iteration order of the hash sets, and does not
fail. (Different groups must differ in time or order value; otherwise their order is arbitrary in both runs, C25.) -/
theorem C94_again (b : Build) (τ : Epoch → Int) (m : Merger Path) (files : Path → Option MFile) (hfiles : Readable files)
    (hsep : ∀ x y, Inputs b τ m files x → Inputs b τ m files y → τ x.time = τ y.time → rank m x.apid = rank m y.apid → x.key τ = y.key τ)
    (out : List (List U8)) (h : Merges b τ m files (.ok out)) (p' : Path) (f' : MFile) (hf' : f'.reader.Delivers f'.content) (hc : f'.content = out.flatten) 
    (files' : Path → Option MFile) (hp' : files' p' = some f') (hfiles' : Readable files') :
    (∃ res, Merges b τ { m with paths := [p'] } files' res) ∧
    ∀ res, Merges b τ { m with paths := [p'] } files' res → ∃ out', res = .ok out' ∧ out'.flatten = out.flatten := by
  obtain ⟨es, hm⟩ := C21_merge b τ m files hfiles out h
  have hfacts : ∀ e ∈ es, (∀ p ∈ e.group.packets, p.WellFormed ∧ p.data.length ≤ 65536) ∧ Groupable e.group.packets := by
    intro e he
    obtain ⟨_, f, gs, a1, a2, a3, _⟩ := hm.inputs e he
    exact group_facts (hfiles _ f a1) a2 a3
  -- the packets of the new file
  have hwire : wire (es.flatMap fun e => e.group.packets) = out.flatten := by
    rw [hm.bytes]
    have : Entry.bytes = fun e : Entry Path => e.group.packets.flatMap Packet.data := rfl
    rw [wire, this, List.flatMap_assoc, List.flatMap_def]
  obtain ⟨qs, s, c1, c2, _⟩ := C05_roundtrip (es.flatMap fun e => e.group.packets) [] f'.reader
    (by
      intro p hp
      obtain ⟨e, he, hp⟩ := List.mem_flatMap.1 hp
      exact (hfacts e he).1 p hp)
    (by simp [packetLen]) (by simp) (by rw [List.append_nil, hwire, ← hc]; exact hf')
  -- their groups
  obtain ⟨blocks, b1, b2, b3⟩ := cut_again _ (es.map fun e => e.group.packets) (Nat.le_refl _) (by
    intro l hl
    obtain ⟨e, he, rfl⟩ := List.mem_map.1 hl
    exact (hfacts e he).2)
  obtain ⟨eb, d1, d2⟩ := split_map (fun e : Entry Path => e.group.packets) blocks es b1.symm
  obtain ⟨xs, rfl⟩ := nonempty_blocks eb (by
    intro x hx hn
    refine b2 (x.map fun e => e.group.packets) ?_ (by rw [hn]; rfl)
    rw [← d2]
    exact List.mem_map_of_mem hx)
  obtain ⟨ls, l1, l2⟩ := split_like (fun p : Packet => (p.header, p.data)) (blocks.map List.flatten) qs (by
    rw [c2]
    congr 1
    rw [List.flatMap_def, ← b1]
    simp [List.flatten_flatten])
  obtain ⟨gs', s1, k1, k2⟩ := (C12_exact qs ls).2 ⟨l1, cut_congr _ _ l2 b3⟩
  have hgs' : FileGroups f' gs' := ⟨qs, _, _, c1, k1⟩
  have hmap : gs'.map (fun g => proj g.packets) = xs.map (fun x => proj (x.1.group.packets ++ x.2.flatMap fun e => e.group.packets)) := by
    rw [← k2, ← d2] at l2
    simp only [List.map_map] at l2
    refine l2.trans (List.map_congr_left fun x _ => ?_)
    simp [List.flatMap_def]
  have hxs : ∀ x ∈ xs, x.1 ∈ es := by
    intro x hx
    rw [← d1]
    exact List.mem_flatten.2 ⟨x.1 :: x.2, List.mem_map.2 ⟨x, hx, rfl⟩, by simp⟩
  obtain ⟨cand, e1, e2, e3, e4⟩ := candidates τ p' xs gs' hmap (fun x hx => by
    obtain ⟨p, rest, h, _⟩ := (hfacts _ (hxs x hx)).2
    rw [h]; simp)
  have hsub : (xs.map (·.1)).Sublist es := by
    rw [← d1]
    clear d1 d2 hmap hxs e3 e4 
    induction xs with
    | nil => simp
    | cons x xs ih =>
      simp only [List.map_cons, List.flatten_cons, List.cons_append]
      exact (ih.trans (List.sublist_append_right _ _)).cons_cons _
  have hface : ∀ c ∈ cand, ∃ e ∈ es, face τ c = face τ e := by
    intro c hc
    have := List.mem_map_of_mem (f := face τ) hc
    rw [e3] at this
    obtain ⟨x, hx, hxe⟩ := List.mem_map.1 this
    exact ⟨x.1, hxs x hx, hxe.symm⟩
  have helig : ∀ c ∈ cand, Eligible b τ m.timeDecoder m.fromEpoch m.toEpoch m.apids c.group c.time := by
    intro c hc
    obtain ⟨e, he, hce⟩ := hface c hc
    simp only [face, Prod.mk.injEq] at hce
    obtain ⟨_, _, _, _, _, _, first, rest, g1, g2, g3, g4, g5, g6⟩ := hm.inputs e he
    have h4 := hce.2.2.2
    rw [g1] at h4
    cases hq : c.group.packets with
    | nil => rw [hq] at h4; simp at h4
    | cons q rest' =>
      rw [hq] at h4
      simp only [List.head?_cons, Option.map_some, Option.some.injEq, Prod.mk.injEq] at h4
      refine ⟨q, rest', hq, by rw [h4.1]; exact g2, ?_, by rw [hce.1]; exact g4, by rw [hce.1]; exact g5, by rw [h4.1]; exact g6⟩
      rw [decode_congr b _ q first h4.1 h4.2, hce.1]
      exact g3
  have hinp : ∀ c ∈ cand, Inputs b τ { m with paths := [p'] } files' c := by
    intro c hc
    refine ⟨by rw [e2 c hc]; simp, f', gs', by rw [e2 c hc]; exact hp', hgs', ?_, helig c hc⟩
    rw [← e1]
    exact List.mem_map_of_mem hc
  -- every input is one of them
  have hall : ∀ e, Inputs b τ { m with paths := [p'] } files' e → e ∈ cand := by
    rintro ⟨p, g, t⟩ ⟨i1, f, gs, i2, i3, i4, i5⟩
    simp only [List.mem_cons, List.not_mem_nil, or_false] at i1 i2 i4 i5
    subst i1
    rw [hp'] at i2
    cases i2
    have := fileGroups_unique i3 hgs'
    subst this
    rw [← e1] at i4
    obtain ⟨c, hc, rfl⟩ := List.mem_map.1 i4
    have ht : t = c.time := time_unique i5 (helig c hc)
    have hp := e2 c hc
    obtain ⟨cp, cg, ct⟩ := c
    simp only at ht hp
    subst ht hp
    exact hc
  have hkeys : cand.map (Entry.key τ) = (xs.map (·.1)).map (Entry.key τ) := by
    have := congrArg (List.map fun x => x.2.1) e3
    simpa [List.map_map, Function.comp_def] using this
  have hnd : (cand.map (Entry.key τ)).Nodup := by
    rw [hkeys]
    exact List.Sublist.nodup (hsub.map _) hm.distinct
  have hmerge : IsMerge b τ { m with paths := [p'] } files' (cand.map Entry.bytes) cand := by
    refine ⟨rfl, hinp, ?_, hnd, fun e he => List.mem_map_of_mem (hall e he)⟩
    have hs := hm.sorted.sublist hsub
    have : (cand.map (face τ)).Pairwise fun x y => τ x.1 < τ y.1 ∨ (τ x.1 = τ y.1 ∧ rank m x.2.2.1 ≤ rank m y.2.2.1) := by
      rw [e3, List.pairwise_map]
      rw [List.pairwise_map] at hs
      exact hs
    rw [List.pairwise_map] at this
    exact this
  have hflat : (cand.map Entry.bytes).flatten = out.flatten := by
    rw [e4, hm.bytes, ← d1]
    simp [List.flatMap_def, List.map_flatten, List.flatten_flatten, Function.comp_def]
  have hres := C21_total b τ { m with paths := [p'] } files' hfiles' (by
    intro p hp
    simp only [List.mem_cons, List.not_mem_nil, or_false] at hp
    subst hp
    refine ⟨f', hp', ?_⟩
    rintro (⟨items, hi⟩ | ⟨gs, g, first, rest, i1, i2, i3, i4, i5⟩)
    · exact absurd (hi.unique c1).2 (by simp)
    · have := fileGroups_unique i1 hgs'
      subst this
      rw [← e1] at i2
      obtain ⟨c, hc, rfl⟩ := List.mem_map.1 i2
      obtain ⟨q, rest', j1, _, j2, _⟩ := helig c hc
      rw [i3, List.cons.injEq] at j1
      obtain ⟨rfl, _⟩ := j1
      simp only at i5
      rw [i5] at j2
      cases j2)
  refine ⟨⟨_, hres.1.choose_spec⟩, ?_⟩
  intro res hr
  obtain ⟨out', rfl⟩ := hres.2 res hr
  refine ⟨out', rfl, ?_⟩
  obtain ⟨es', hm'⟩ := C21_merge b τ _ files' hfiles' out' hr
  have : cand.map Entry.bytes = out' := isMerge_same (fun _ => rfl) (fun e he => ⟨e, he, rfl⟩) (fun e he => ⟨e, he, rfl, rfl⟩)
    (by
      intro x y hx hy hk
      rw [inj_of_nodup_map _ _ hnd x (hall x hx) y (hall y hy) hk])
    (by
      intro x y hx hy ht hr
      obtain ⟨e, he, hxe⟩ := hface x (hall x hx)
      obtain ⟨e', he', hye⟩ := hface y (hall y hy)
      simp only [face, Prod.mk.injEq] at hxe hye
      rw [hxe.2.1, hye.2.1]
      refine hsep e e' (hm.inputs e he) (hm.inputs e' he') (by rw [← hxe.1, ← hye.1]; exact ht) ?_
      rw [← hxe.2.2.1, ← hye.2.2.1]
      exact hr)
    _ _ _ _ hmerge hm'
  rw [← this, hflat]

/-- C94 for the command: `ccsds merge … -o C` followed by `ccsds merge … -o D C` with the same options makes `D` a copy of `C`. -/
theorem C94_command (b : Build) (τ : Epoch → Int) (micros : Epoch → Nat) (sched : Path → List U8 → Reader) (hs : Faithful sched) (a : MergeArgs Path)
    (fs fs1 fs2 : FS Path) (hio : a.output ∉ a.inputs) (h1 : MergeRun b τ micros sched a fs .ok fs1)
    (hsep : ∀ ord, orderOf a = some ord → ∀ x y, Inputs b τ (mergerOf micros a ord) (fs.files sched) x → Inputs b τ (mergerOf micros a ord) (fs.files sched) y →
      τ x.time = τ y.time → rank (mergerOf micros a ord) x.apid = rank (mergerOf micros a ord) y.apid → x.key τ = y.key τ)
    (d : Path) (hd : d ≠ a.output) (h2 : MergeRun b τ micros sched { a with inputs := [a.output], output := d } fs1 .ok fs2) :
    fs2 d = fs1 a.output := by
  obtain ⟨ord, w, o1, m1, rfl⟩ := C64_merge_partial b τ micros sched a fs fs1 hio h1
  obtain ⟨ord', w', o2, m2, rfl⟩ := C64_merge_partial b τ micros sched _ _ fs2 (by simpa using hd) h2
  have : orderOf { a with inputs := [a.output], output := d } = orderOf a := rfl
  rw [this, o1] at o2
  cases o2
  have hm : mergerOf micros { a with inputs := [a.output], output := d } ord = { mergerOf micros a ord with paths := [a.output] } := by
    simp only [mergerOf]
    cases a.from? <;> cases a.to? <;> rfl
  rw [hm] at m2
  obtain ⟨_, h⟩ := C94_again b τ (mergerOf micros a ord) (fs.files sched) (files_readable fs sched hs) (hsep ord o1) w m1 a.output
    ⟨w.flatten, sched a.output w.flatten⟩ (hs _ _) rfl ((fs.put a.output w.flatten).files sched) (by simp [FS.files, FS.put]) (files_readable _ sched hs)
  obtain ⟨out', e, hf⟩ := h _ m2
  cases e
  simp [FS.put, hf]

/-- The hypotheses of `C94_again` hold for the file of `FMEx` with `--apids 1`: the merge writes the early group before the late one, and although reading them
back makes them one group, merging again changes nothing. -/
example (b : Build) : (∀ x y, Inputs b MergeEx.tau (MergeEx.merger.withApids [1#16]) (MergeEx.files FMEx.whole) x →
      Inputs b MergeEx.tau (MergeEx.merger.withApids [1#16]) (MergeEx.files FMEx.whole) y → MergeEx.tau x.time = MergeEx.tau y.time →
      rank (MergeEx.merger.withApids [1#16]) x.apid = rank (MergeEx.merger.withApids [1#16]) y.apid → x.key MergeEx.tau = y.key MergeEx.tau) ∧
    Merges b MergeEx.tau (MergeEx.merger.withApids [1#16]) (MergeEx.files FMEx.whole) (.ok [FMEx.early, FMEx.late]) := by
  refine ⟨?_, FMEx.merges b⟩
  intro x y hx hy ht _
  rcases FMEx.inputs hx with rfl | rfl <;> rcases FMEx.inputs hy with rfl | rfl
  · rfl
  · exact absurd ht (by decide)
  · exact absurd ht (by decide)
  · rfl

/-! ## C95  Merging in steps -/

/-- Full statement: merging some of the files first, and then the result with the others, gives the file that merging all of them at once gives (when that is
determined, see C25). -/
def C95_full : Prop :=
  ∀ (b : Build) (τ : Epoch → Int) (m : Merger Nat) (files files' : Nat → Option MFile) (some_ others : List Nat) (p' : Nat) (f' : MFile)
    (first out out' : List (List U8)), Readable files → Readable files' → m.paths = some_ ++ others → (∀ q ∈ others, q ≠ p' ∧ files' q = files q) →
    Merges b τ { m with paths := some_ } files (.ok first) → files' p' = some f' → f'.content = first.flatten →
    (∀ x y, Inputs b τ m files x → Inputs b τ m files y → x.key τ = y.key τ → x.bytes = y.bytes) →
    (∀ x y, Inputs b τ m files x → Inputs b τ m files y → τ x.time = τ y.time → rank m x.apid = rank m y.apid → x.key τ = y.key τ) →
    Merges b τ m files (.ok out) → Merges b τ { m with paths := p' :: others } files' (.ok out') → out'.flatten = out.flatten

omit [DecidableEq Path] in
theorem groups_proj (gs : List PacketGroup) : ∀ es : List (Entry Path), gs.map groupBytes = es.map Entry.bytes →
    (∀ g ∈ gs, ∀ p ∈ g.packets, p.WellFormed ∧ p.data.length ≤ 65536) → (∀ e ∈ es, ∀ p ∈ e.group.packets, p.WellFormed ∧ p.data.length ≤ 65536) →
    gs.map (fun g => proj g.packets) = es.map fun e => proj e.group.packets := by
  induction gs with
  | nil => intro es h _ _; cases es <;> simp_all
  | cons g gs ih =>
    intro es h h1 h2
    cases es with
    | nil => simp at h
    | cons e es =>
      rw [List.map_cons, List.map_cons, List.cons.injEq] at h
      rw [List.map_cons, List.map_cons, ih es h.2 (fun k hk => h1 k (by simp [hk])) (fun k hk => h2 k (by simp [hk])),
        wire_inj g.packets e.group.packets (h1 g (by simp)) (h2 e (by simp)) h.1]

/-- C95: it holds if reading the first result back gives the groups it was written from (by C12, if it has no segmented group directly followed by one of
the same APID). -/
theorem C95_partial (b : Build) (τ : Epoch → Int) (m : Merger Path) (files files' : Path → Option MFile) (some_ others : List Path) (p' : Path) (f' : MFile)
    (first out out' : List (List U8)) (hfiles : Readable files) (hfiles' : Readable files') (hpaths : m.paths = some_ ++ others)
    (hothers : ∀ q ∈ others, q ≠ p' ∧ files' q = files q) (h1 : Merges b τ { m with paths := some_ } files (.ok first)) (hp' : files' p' = some f')
    (gs' : List PacketGroup) (hgs' : FileGroups f' gs') (hback : gs'.map groupBytes = first)
    (hcopy : ∀ x y, Inputs b τ m files x → Inputs b τ m files y → x.key τ = y.key τ → x.bytes = y.bytes)
    (hsep : ∀ x y, Inputs b τ m files x → Inputs b τ m files y → τ x.time = τ y.time → rank m x.apid = rank m y.apid → x.key τ = y.key τ)
    (h : Merges b τ m files (.ok out)) (h' : Merges b τ { m with paths := p' :: others } files' (.ok out')) : out' = out := by
  obtain ⟨es1, hm1⟩ := C21_merge b τ _ files hfiles first h1
  obtain ⟨es, hm⟩ := C21_merge b τ m files hfiles out h
  obtain ⟨es', hm'⟩ := C21_merge b τ _ files' hfiles' out' h'
  have hproj := groups_proj gs' es1 (hback.trans hm1.bytes) (fun g hg => (group_facts (hfiles' _ _ hp') hgs' hg).1) (by
    intro e he
    obtain ⟨_, f, gs, a1, a2, a3, _⟩ := hm1.inputs e he
    exact (group_facts (hfiles _ f a1) a2 a3).1)
  have hup : ∀ e, Inputs b τ { m with paths := some_ } files e → Inputs b τ m files e := by
    rintro e ⟨a1, a2⟩
    exact ⟨by rw [hpaths]; exact List.mem_append_left _ a1, a2⟩
  refine (isMerge_same (m := m) (m' := { m with paths := p' :: others }) (fun _ => rfl) ?_ ?_ hcopy hsep out out' es es' hm hm').symm
  · intro e he
    obtain ⟨a1, f, gs, a2, a3, a4, a5⟩ := he
    rw [hpaths] at a1
    rcases List.mem_append.1 a1 with a1 | a1
    · have hk := hm1.complete e ⟨a1, f, gs, a2, a3, a4, a5⟩
      obtain ⟨x, hx, hxk⟩ := List.mem_map.1 hk
      obtain ⟨_, _, _, _, _, _, hel⟩ := hm1.inputs x hx
      have := List.mem_map_of_mem (f := fun e : Entry Path => proj e.group.packets) hx
      rw [← hproj] at this
      obtain ⟨g, hg, hgx⟩ := List.mem_map.1 this
      refine ⟨⟨p', g, x.time⟩, ⟨by simp, f', gs', hp', hgs', hg, eligible_congr hgx (fun _ _ h => h) hel⟩, ?_⟩
      rw [← hxk]
      exact (entry_congr τ p' x.time hgx).1
    · refine ⟨e, ⟨by simp [a1], f, gs, ?_, a3, a4, a5⟩, rfl⟩
      rw [(hothers _ a1).2]
      exact a2
  · rintro ⟨p, g, t⟩ ⟨a1, f, gs, a2, a3, a4, a5⟩
    simp only at a1 a2 a4 a5
    by_cases hpp : p = p'
    · subst hpp
      rw [hp'] at a2
      cases a2
      have := fileGroups_unique a3 hgs'
      subst this
      have := List.mem_map_of_mem (f := fun g : PacketGroup => proj g.packets) a4
      rw [hproj] at this
      obtain ⟨x, hx, hgx⟩ := List.mem_map.1 this
      have hin := hm1.inputs x hx
      obtain ⟨_, _, _, _, _, _, hel⟩ := hin
      have ht : x.time = t := time_unique hel (eligible_congr (g := g) (g' := x.group) (sel' := m.apids) hgx (fun _ _ h => h) a5)
      refine ⟨x, hup x (hm1.inputs x hx), ?_⟩
      subst ht
      exact ⟨(entry_congr τ p x.time hgx.symm).1, (entry_congr τ p x.time hgx.symm).2⟩
    · have a1' : p ∈ others := by
        rcases List.mem_cons.1 a1 with h | h
        · exact absurd h hpp
        · exact h
      refine ⟨⟨p, g, t⟩, ⟨by rw [hpaths]; exact List.mem_append_right _ a1', f, gs, ?_, a3, a4, a5⟩, rfl, rfl⟩
      rw [(hothers p a1').2] at a2
      exact a2

/-! ### It does not hold in general

File 0 has two segmented groups of APID 1, of days 1 and 3, and a packet of APID 2 between them; file 1 has one of day 2. With `--apids 1`. -/
namespace MSEx
open FMEx (bytes pkt time)

def day (d seq : U8) : List U8 := bytes d 1#8 0x40#8 seq ++ bytes d 1#8 0x80#8 (seq + 1)
def grp (d seq : U8) (off : Nat) : PacketGroup := ⟨1#16, [pkt d 1#8 0x40#8 seq off, pkt d 1#8 0x80#8 (seq + 1) (off + 14)]⟩
def gOther : PacketGroup := ⟨2#16, [pkt 2#8 2#8 0xc0#8 0#8 28]⟩
def c0 : List U8 := day 1#8 0#8 ++ bytes 2#8 2#8 0xc0#8 0#8 ++ day 3#8 4#8
def c1 : List U8 := day 2#8 2#8
def c2 : List U8 := day 1#8 0#8 ++ day 3#8 4#8
def files : Nat → Option MFile
  | 0 => some (MergeEx.file c0)
  | 1 => some (MergeEx.file c1)
  | 2 => some (MergeEx.file c2)
  | _ => none
def merger : Merger Nat := (Merger.new [0, 1] MergeEx.dec).withApids [1#16]
def gBoth : PacketGroup := ⟨1#16, [pkt 1#8 1#8 0x40#8 0#8 0, pkt 1#8 1#8 0x80#8 1#8 14, pkt 3#8 1#8 0x40#8 4#8 28, pkt 3#8 1#8 0x80#8 5#8 42]⟩

theorem readable : Readable files := by
  have key : ∀ l : List U8, l ≠ [] → (MergeEx.file l).reader.Delivers (MergeEx.file l).content := by
    intro l hl
    refine ⟨?_, by simp [evBytes, Ev.bytes, MergeEx.file, Reader.ofBytes], rfl⟩
    intro e he
    simp only [MergeEx.file, Reader.ofBytes, List.mem_cons, List.not_mem_nil, or_false] at he
    subst he
    exact .inl ⟨l, hl, rfl⟩
  intro p f hf
  match p, hf with
  | 0, hf => cases hf; exact key _ (by decide)
  | 1, hf => cases hf; exact key _ (by decide)
  | 2, hf => cases hf; exact key _ (by decide)

theorem groups0 : FileGroups (MergeEx.file c0) [grp 1#8 0#8 0, gOther, grp 3#8 4#8 42] :=
  ⟨[pkt 1#8 1#8 0x40#8 0#8 0, pkt 1#8 1#8 0x80#8 1#8 14, pkt 2#8 2#8 0xc0#8 0#8 28, pkt 3#8 1#8 0x40#8 4#8 42, pkt 3#8 1#8 0x80#8 5#8 56], _, _,
    .step rfl (.step rfl (.step rfl (.step rfl (.step rfl (.done rfl))))), .step rfl (.step rfl (.step rfl (.done rfl)))⟩

theorem groups1 : FileGroups (MergeEx.file c1) [grp 2#8 2#8 0] :=
  ⟨(grp 2#8 2#8 0).packets, _, _, .step rfl (.step rfl (.done rfl)), .step rfl (.done rfl)⟩

theorem groups2 : FileGroups (MergeEx.file c2) [gBoth] :=
  ⟨gBoth.packets, _, _, .step rfl (.step rfl (.step rfl (.step rfl (.done rfl)))), .step rfl (.done rfl)⟩

theorem dec (b : Build) (d seq fl : U8) (n off : Nat) (h : (d = 1#8 ∧ n = 1) ∨ (d = 2#8 ∧ n = 2) ∨ (d = 3#8 ∧ n = 3)) :
    MergeEx.dec.decode b (pkt d 1#8 fl seq off) = .ret (.ok (time n)) := by
  have : MergeEx.dec.decode b (pkt d 1#8 fl seq off) = Timecode.decode b (.cds 2 2) [d, 0#8, 0#8, 0#8, 0#8, 0#8, 0#8, 0#8] := rfl
  rw [this]
  rcases h with ⟨rfl, rfl⟩ | ⟨rfl, rfl⟩ | ⟨rfl, rfl⟩ <;> (cases b with | mk o => cases o <;> decide)

def p1 : Ptr Nat := ⟨0, 0, 28, time 1, 1#16, 0#16, 1⟩
def p2 : Ptr Nat := ⟨1, 0, 28, time 2, 1#16, 2#16, 1⟩
def p3 : Ptr Nat := ⟨0, 42, 28, time 3, 1#16, 4#16, 1⟩
def pBoth : Ptr Nat := ⟨2, 0, 56, time 1, 1#16, 0#16, 1⟩

theorem pointers_of {b : Build} {m : Merger Nat} {q : Nat} {f : MFile} {gs : List PacketGroup} {ps : List (Ptr Nat)} (h : FileGroups f gs)
    (hp : m.pointersLoop b MergeEx.tau q gs [] = .ret ps) : m.Pointers b MergeEx.tau q f (some ps) := by
  obtain ⟨qs, s, s', h1, h2⟩ := h
  refine ⟨_, some s, h1, _, s', by rw [oks_map_ok]; exact h2, ?_⟩
  rw [oks_map_ok, hp]

/-- Merging file 0 alone. -/
theorem mergesFirst (b : Build) : Merges b MergeEx.tau { merger with paths := [0] } files (.ok [day 1#8 0#8, day 3#8 4#8]) := by
  have hi : Index b MergeEx.tau { merger with paths := [0] } files [0] [] (some [p1, p3]) :=
    .step rfl (pointers_of groups0 (ps := [p1, p3]) (by cases b with | mk o => cases o <;> rfl)) (List.Perm.refl _) (List.Perm.refl _)
      (by rw [show Ptr.union MergeEx.tau [] [p1, p3] = [p1, p3] by rfl]; exact .done)
  have := Merges.finished (m := { merger with paths := [0] }) (files := files) (by intro p hp; simp at hp; subst hp; simp [files]) (List.Perm.refl _) hi (List.Perm.refl _)
  rwa [List.mergeSort_of_pairwise (by decide)] at this

/-- Merging both. -/
theorem mergesAll (b : Build) : Merges b MergeEx.tau merger files (.ok [day 1#8 0#8, day 2#8 2#8, day 3#8 4#8]) := by
  have hi : Index b MergeEx.tau merger files [0, 1] [] (some [p1, p3, p2]) :=
    .step rfl (pointers_of groups0 (ps := [p1, p3]) (by cases b with | mk o => cases o <;> rfl)) (List.Perm.refl _) (List.Perm.refl _)
      (by
        rw [show Ptr.union MergeEx.tau [] [p1, p3] = [p1, p3] by rfl]
        exact .step rfl (pointers_of groups1 (ps := [p2]) (by cases b with | mk o => cases o <;> rfl)) (List.Perm.refl _) (List.Perm.refl _)
          (by rw [show Ptr.union MergeEx.tau [p1, p3] [p2] = [p1, p3, p2] by rfl]; exact .done))
  have := Merges.finished (m := merger) (files := files) (by
      intro p hp
      simp [merger, Merger.withApids, Merger.new] at hp
      rcases hp with rfl | rfl <;> simp [files]) (List.Perm.refl _) hi
    (idx' := [p1, p2, p3]) ((List.Perm.swap _ _ _).cons _)
  rwa [List.mergeSort_of_pairwise (by decide)] at this

/-- Merging the result of the first merge (file 2) with file 1. -/
theorem mergesSteps (b : Build) : Merges b MergeEx.tau { merger with paths := [2, 1] } files (.ok [day 1#8 0#8 ++ day 3#8 4#8, day 2#8 2#8]) := by
  have hi : Index b MergeEx.tau { merger with paths := [2, 1] } files [2, 1] [] (some [pBoth, p2]) :=
    .step rfl (pointers_of groups2 (ps := [pBoth]) (by cases b with | mk o => cases o <;> rfl)) (List.Perm.refl _) (List.Perm.refl _)
      (by
        rw [show Ptr.union MergeEx.tau [] [pBoth] = [pBoth] by rfl]
        exact .step rfl (pointers_of groups1 (ps := [p2]) (by cases b with | mk o => cases o <;> rfl)) (List.Perm.refl _) (List.Perm.refl _)
          (by rw [show Ptr.union MergeEx.tau [pBoth] [p2] = [pBoth, p2] by rfl]; exact .done))
  have := Merges.finished (m := { merger with paths := [2, 1] }) (files := files) (by
      intro p hp
      simp at hp
      rcases hp with rfl | rfl <;> simp [files]) (List.Perm.refl _) hi (List.Perm.refl _)
  rwa [List.mergeSort_of_pairwise (by decide)] at this

theorem inputs {b : Build} {e : Entry Nat} (h : Inputs b MergeEx.tau merger files e) :
    e = ⟨0, grp 1#8 0#8 0, time 1⟩ ∨ e = ⟨1, grp 2#8 2#8 0, time 2⟩ ∨ e = ⟨0, grp 3#8 4#8 42, time 3⟩ := by
  obtain ⟨p, g, t⟩ := e
  obtain ⟨hp, f, gs, hf, hgs, hg, he⟩ := h
  simp only at hp hf hg he
  have hp : p = 0 ∨ p = 1 := by simpa [merger, Merger.new, Merger.withApids] using hp
  obtain ⟨first, rest, ep, _, hd, _, _, hs⟩ := he
  rcases hp with rfl | rfl
  · have : f = MergeEx.file c0 := (Option.some.inj (show some (MergeEx.file c0) = some f from hf)).symm
    subst this
    have := fileGroups_unique hgs groups0
    subst this
    simp only [List.mem_cons, List.not_mem_nil, or_false] at hg
    rcases hg with rfl | rfl | rfl
    · have e1 : pkt 1#8 1#8 0x40#8 0#8 0 = first := (List.cons.inj ep).1
      subst e1
      have := (dec b 1#8 0#8 0x40#8 1 0 (by simp)).symm.trans hd
      simp only [Outcome.ret.injEq, Except.ok.injEq] at this
      exact .inl (by rw [this])
    · have e1 : pkt 2#8 2#8 0xc0#8 0#8 28 = first := (List.cons.inj ep).1
      subst e1
      exact absurd hs (by decide)
    · have e1 : pkt 3#8 1#8 0x40#8 4#8 42 = first := (List.cons.inj ep).1
      subst e1
      have := (dec b 3#8 4#8 0x40#8 3 42 (by simp)).symm.trans hd
      simp only [Outcome.ret.injEq, Except.ok.injEq] at this
      exact .inr (.inr (by rw [this]))
  · have : f = MergeEx.file c1 := (Option.some.inj (show some (MergeEx.file c1) = some f from hf)).symm
    subst this
    have := fileGroups_unique hgs groups1
    subst this
    simp only [List.mem_cons, List.not_mem_nil, or_false] at hg
    subst hg
    have e1 : pkt 2#8 1#8 0x40#8 2#8 0 = first := (List.cons.inj ep).1
    subst e1
    have := (dec b 2#8 2#8 0x40#8 2 0 (by simp)).symm.trans hd
    simp only [Outcome.ret.injEq, Except.ok.injEq] at this
    exact .inr (.inl (by rw [this]))

end MSEx

/-- The groups of days 1 and 3 become one, and the group of day 2 is written after it. -/
theorem C95_violated : ¬ C95_full := by
  intro h
  have := h ⟨true⟩ MergeEx.tau MSEx.merger MSEx.files MSEx.files [0] [1] 2 (MergeEx.file MSEx.c2) _ _ _ MSEx.readable MSEx.readable rfl
    (by intro q hq; simp at hq; subst hq; exact ⟨by decide, rfl⟩) (MSEx.mergesFirst _) rfl (by decide)
    (by
      intro x y hx hy hk
      rcases MSEx.inputs hx with rfl | rfl | rfl <;> rcases MSEx.inputs hy with rfl | rfl | rfl <;> first | rfl | exact absurd hk (by decide))
    (by
      intro x y hx hy ht _
      rcases MSEx.inputs hx with rfl | rfl | rfl <;> rcases MSEx.inputs hy with rfl | rfl | rfl <;> first | rfl | exact absurd ht (by decide))
    (MSEx.mergesAll _) (MSEx.mergesSteps _)
  exact absurd this (by decide)

/-- `C95_partial`'s hypothesis about reading back, on a result with one group. -/
example : FileGroups (MergeEx.file MSEx.c1) [MSEx.grp 2#8 2#8 0] ∧ [MSEx.grp 2#8 2#8 0].map groupBytes = [MSEx.day 2#8 2#8] :=
  ⟨MSEx.groups1, by decide⟩

end Ccsds
