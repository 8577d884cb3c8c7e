import Verif.Props.Filter
import Verif.Props.Merge
import Verif.Props.Groups
/-!
# C92, C93: `ccsds filter` applied in steps, and before `ccsds merge`
-/
namespace Ccsds
open Spec Filter

/-! ## C92  Filtering in steps -/

/-- C92: what `--include L` and `--exclude L` write is the file, split in two: every packet is in exactly one of the outputs, in input order. -/
theorem C92_split_apids (b : Build) (τ : Epoch → Int) (hτ : τ minEpoch < τ maxEpoch) (r : Reader) (ps : List Packet) (hps : Decodes r ps) (l : List U16)
    (hl : l ≠ []) (w w' : List (List U8)) (h : Runs b τ r l [] none none (.ok w)) (h' : Runs b τ r [] l none none (.ok w')) :
    (w ++ w').Perm (ps.map Packet.data) ∧ w.Sublist (ps.map Packet.data) ∧ w'.Sublist (ps.map Packet.data) ∧
      w.length = ps.countP (fun p => decide (p.header.apid ∈ l)) := by
  have e := (C53_untimed b τ hτ r ps hps l [] (.inl hl) _).1 h
  have e' := (C53_untimed b τ hτ r ps hps [] l (.inr hl) _).1 h'
  cases e
  cases e'
  have e1 : (fun p : Packet => decide (ApidPasses l [] p.header.apid)) = fun p => decide (p.header.apid ∈ l) := by
    funext p
    simp [ApidPasses, hl]
  have e2 : (fun p : Packet => decide (ApidPasses [] l p.header.apid)) = fun p => !decide (p.header.apid ∈ l) := by
    funext p
    simp [ApidPasses]
  rw [e1, e2]
  refine ⟨?_, List.filter_sublist.map _, List.filter_sublist.map _, by rw [List.length_map, List.countP_eq_length_filter]⟩
  rw [← List.map_append]
  exact (List.filter_append_perm _ _).map _

/-- C92: `--before T` and `--after T` split the groups that have a time: each of them is in exactly one of the outputs, in input order. (Times from 2100 on are dropped by
`--after`, see C53.) -/
theorem C92_split_time (b : Build) (τ : Epoch → Int) (bs : List U8) (r : Reader) (ps : List Packet) (gs : List PacketGroup) (t : Epoch)
    (hd : r.Delivers bs) (hps : Decodes r ps) (hgs : GroupsOf ps gs)
    (hm : ∀ g ∈ gs, ∀ first ∈ g.packets.head?, ∀ t ∈ cdsTime first, τ t < τ ⟨.utc, (daysTo1958 + 51865) * 86400 * 1000000000⟩)
    (w w' : List (List U8)) (h : Runs b τ r [] [] (some t) none (.ok w)) (h' : Runs b τ r [] [] none (some t) (.ok w')) :
    (w ++ w').Perm ((gs.filter (groupPasses τ [] [] none none)).map groupBytes) ∧
      w.Sublist (gs.map groupBytes) ∧ w'.Sublist (gs.map groupBytes) := by
  have e := (C53_partial b τ bs r ps gs [] [] (some t) none hd hps hgs (.inl rfl) (by simp) _).1 h
  have e' := (C53_partial b τ bs r ps gs [] [] none (some t) hd hps hgs (.inr rfl) (fun _ => hm) _).1 h'
  cases e
  cases e'
  refine ⟨?_, List.filter_sublist.map _, List.filter_sublist.map _⟩
  rw [← List.map_append]
  refine List.Perm.map _ ?_
  let early : PacketGroup → Bool := fun g => groupPasses τ [] [] (some t) none g
  have e1 : gs.filter (groupPasses τ [] [] (some t) none) = (gs.filter (groupPasses τ [] [] none none)).filter early := by
    rw [List.filter_filter]
    refine List.filter_congr fun g _ => ?_
    show groupPasses τ [] [] (some t) none g = (groupPasses τ [] [] (some t) none g && groupPasses τ [] [] none none g)
    unfold groupPasses
    split
    · rfl
    · split
      · simp
      · simp [TimePasses, ApidPasses]
        intro h1 _
        exact h1
  have e2 : gs.filter (groupPasses τ [] [] none (some t)) = (gs.filter (groupPasses τ [] [] none none)).filter (fun g => !early g) := by
    rw [List.filter_filter]
    refine List.filter_congr fun g _ => ?_
    show groupPasses τ [] [] none (some t) g = (!(groupPasses τ [] [] (some t) none g) && groupPasses τ [] [] none none g)
    unfold groupPasses
    split
    · rfl
    · split
      · simp
      · rename_i first rest _ _ t' _
        generalize (first.header.sequenceFlags.toNat == 1 || first.header.sequenceFlags.toNat == 3) = x
        cases x
        · simp
        · by_cases h : τ t' < τ t
          · simp [h, TimePasses, ApidPasses]
          · have h' : τ t ≤ τ t' := by omega
            simp [h, h', TimePasses, ApidPasses]
  rw [e1, e2]
  exact List.filter_append_perm _ _

/-- C92: filtering the output of a filter writes the packets that pass both. -/
theorem C92_twice (b : Build) (τ : Epoch → Int) (hτ : τ minEpoch < τ maxEpoch) (bs : List U8) (r : Reader) (hd : r.Delivers bs) (ps : List Packet)
    (hps : Decodes r ps) (i e i' e' : List U16) (hne : i ≠ [] ∨ e ≠ []) (hne' : i' ≠ [] ∨ e' ≠ []) (w : List (List U8))
    (h : Runs b τ r i e none none (.ok w)) (r' : Reader) (hd' : r'.Delivers w.flatten) (res : FResult) :
    Runs b τ r' i' e' none none res ↔
      res = .ok ((ps.filter fun p => decide (ApidPasses i e p.header.apid ∧ ApidPasses i' e' p.header.apid)).map Packet.data) := by
  obtain ⟨qs, h1, h2⟩ := C53_redecode b τ hτ bs r hd ps hps i e hne w h r' hd'
  rw [C53_untimed b τ hτ r' qs h1 i' e' hne']
  have key : (qs.filter fun p => decide (ApidPasses i' e' p.header.apid)).map Packet.data =
      (ps.filter fun p => decide (ApidPasses i e p.header.apid ∧ ApidPasses i' e' p.header.apid)).map Packet.data := by
    have a1 : ∀ l : List Packet, (l.filter fun p => decide (ApidPasses i' e' p.header.apid)).map Packet.data =
        ((l.map fun p => (p.header, p.data)).filter fun x => decide (ApidPasses i' e' x.1.apid)).map Prod.snd := by
      intro l
      induction l with
      | nil => rfl
      | cons p l ih =>
        rw [List.map_cons, List.filter_cons, List.filter_cons]
        split
        · rw [List.map_cons, List.map_cons, ih]
        · exact ih
    rw [a1, h2, ← a1, List.filter_filter]
    congr 1
    refine List.filter_congr fun p _ => ?_
    rw [Bool.and_comm]
    simp
  rw [key]

/-- C92: "values are first included, then excluded" (the help of `--include` and `--exclude`): `--include I --exclude E` writes what `--include I` followed by `--exclude E` on the
output writes, and also what the two write in the other order. -/
theorem C92_include_then_exclude (b : Build) (τ : Epoch → Int) (hτ : τ minEpoch < τ maxEpoch) (bs : List U8) (r : Reader) (hd : r.Delivers bs) (ps : List Packet)
    (hps : Decodes r ps) (i e : List U16) (hi : i ≠ []) (he : e ≠ []) (both w1 w2 : List (List U8)) (h : Runs b τ r i e none none (.ok both))
    (h1 : Runs b τ r i [] none none (.ok w1)) (h2 : Runs b τ r [] e none none (.ok w2))
    (r1 r2 : Reader) (hd1 : r1.Delivers w1.flatten) (hd2 : r2.Delivers w2.flatten) :
    (∀ res, Runs b τ r1 [] e none none res ↔ res = .ok both) ∧ ∀ res, Runs b τ r2 i [] none none res ↔ res = .ok both := by
  have hb := (C53_untimed b τ hτ r ps hps i e (.inl hi) _).1 h
  cases hb
  constructor
  · intro res
    rw [C92_twice b τ hτ bs r hd ps hps i [] [] e (.inl hi) (.inr he) w1 h1 r1 hd1]
    have : ∀ p : Packet, decide (ApidPasses i [] p.header.apid ∧ ApidPasses [] e p.header.apid) = decide (ApidPasses i e p.header.apid) := by
      intro p; exact decide_eq_decide.2 (by simp [ApidPasses])
    simp only [this]
  · intro res
    rw [C92_twice b τ hτ bs r hd ps hps [] e i [] (.inr he) (.inl hi) w2 h2 r2 hd2]
    have : ∀ p : Packet, decide (ApidPasses [] e p.header.apid ∧ ApidPasses i [] p.header.apid) = decide (ApidPasses i e p.header.apid) := by
      intro p; exact decide_eq_decide.2 (by simp [ApidPasses, and_comm])
    simp only [this]


/-! Concrete: the two-packet file of `FilterEx`. -/
example (b : Build) : Runs b FilterEx.tau (Reader.ofBytes FilterEx.stream) [1#16] [] none none (.ok [FilterEx.early]) ∧
    Runs b FilterEx.tau (Reader.ofBytes FilterEx.stream) [] [1#16] none none (.ok [FilterEx.late]) :=
  ⟨(C53_untimed b FilterEx.tau (by decide) _ _ FilterEx.decodes [1#16] [] (by simp) _).2 (by decide +kernel),
    (C53_untimed b FilterEx.tau (by decide) _ _ FilterEx.decodes [] [1#16] (by simp) _).2 (by decide +kernel)⟩

/-! ## C93  Selecting before or while merging -/

/-- Of the groups with a selected APID, none that is not a single unsegmented packet is directly followed by one of the same APID. -/
def KeepsApart (sel : List U16) (gs : List PacketGroup) : Prop :=
  ∀ l g h r, gs.filter (fun g => decide (g.apid ∈ sel)) = l ++ g :: h :: r → (∃ p, g.packets = [p] ∧ p.header.sequenceFlags.toNat = 3) ∨ h.apid ≠ g.apid

/-- `files'` are `files` after `ccsds filter`, with the same names. -/
def Filtered {Path : Type} (b : Build) (τ : Epoch → Int) (incl excl : List U16) (paths : List Path) (files files' : Path → Option MFile) : Prop :=
  ∀ p ∈ paths, ∃ f f' w, files p = some f ∧ files' p = some f' ∧ Runs b τ f.reader incl excl none none (.ok w) ∧ f'.content = w.flatten

theorem split_like {α β : Type} (f : α → β) (ls : List (List α)) : ∀ qs : List α, qs.map f = ls.flatten.map f →
    ∃ ls' : List (List α), ls'.flatten = qs ∧ ls'.map (List.map f) = ls.map (List.map f) := by
  induction ls with
  | nil => intro qs h; exact ⟨[], by simpa using h.symm, rfl⟩
  | cons l ls ih =>
    intro qs h
    rw [List.flatten_cons, List.map_append, List.map_eq_append_iff] at h
    obtain ⟨q1, q2, rfl, h1, h2⟩ := h
    obtain ⟨ls', e1, e2⟩ := ih q2 h2
    exact ⟨q1 :: ls', by simp [e1], by simp [h1, e2]⟩

theorem cut_congr (ls : List (List Packet)) : ∀ ls' : List (List Packet),
    ls'.map (List.map fun p => (p.header, p.data)) = ls.map (List.map fun p => (p.header, p.data)) → CutWhereApidChanges ls → CutWhereApidChanges ls' := by
  induction ls with
  | nil => intro ls' h _; simp at h; subst h; trivial
  | cons l ls ih =>
    intro ls' h hc
    cases ls' with
    | nil => simp at h
    | cons l' ls' =>
      rw [List.map_cons, List.map_cons, List.cons.injEq] at h
      obtain ⟨h1, h2⟩ := h
      obtain ⟨⟨p, rest, rfl, c1, c2, c3⟩, hc'⟩ := hc
      cases l' with
      | nil => simp at h1
      | cons p' rest' =>
        rw [List.map_cons, List.map_cons, List.cons.injEq, Prod.mk.injEq] at h1
        obtain ⟨⟨hh, hd⟩, hr⟩ := h1
        have hs : p'.isStandalone = p.isStandalone := by unfold Packet.isStandalone; rw [hh]
        refine ⟨⟨p', rest', rfl, ?_, ?_, ?_⟩, ih ls' h2 hc'⟩
        · intro h; rw [hs] at h; rw [c1 h] at hr; simpa using hr
        · intro q hq
          have : (q.header, q.data) ∈ rest'.map (fun p => (p.header, p.data)) := List.mem_map_of_mem hq
          rw [hr] at this
          obtain ⟨q', hq', e⟩ := List.mem_map.1 this
          rw [Prod.mk.injEq] at e
          rw [← e.1, c2 q' hq', hh]
        · intro h k hk
          rw [hs] at h
          cases ls' with
          | nil => simp at hk
          | cons k' ls'' =>
            simp only [List.head?_cons, Option.mem_def, Option.some.injEq] at hk
            subst hk
            cases ls with
            | nil => simp at h2
            | cons g ls =>
              rw [List.map_cons, List.map_cons, List.cons.injEq] at h2
              have := c3 h g (by simp)
              rw [hh]
              cases k' with
              | nil => simp
              | cons a k' =>
                cases g with
                | nil => simp at h2
                | cons a' g =>
                  have e := h2.1
                  rw [List.map_cons, List.map_cons, List.cons.injEq, Prod.mk.injEq] at e
                  simpa [e.1.1] using this

theorem cut_filter (sel : List U16) (gs : List PacketGroup) (hapid : ∀ g ∈ gs, ∀ p ∈ g.packets, p.header.apid = g.apid) (hne : ∀ g ∈ gs, g.packets ≠ [])
    (hc : CutWhereApidChanges (gs.map PacketGroup.packets)) (hk : KeepsApart sel gs) :
    CutWhereApidChanges ((gs.filter fun g => decide (g.apid ∈ sel)).map PacketGroup.packets) := by
  have hparts : ∀ g ∈ gs, ∃ p rest, g.packets = p :: rest ∧ (p.isStandalone = true → rest = []) ∧ (∀ q ∈ rest, q.header.apid = p.header.apid) := by
    clear hk hapid hne
    induction gs with
    | nil => simp
    | cons g gs ih =>
      obtain ⟨⟨p, rest, e, c1, c2, _⟩, hc'⟩ := hc
      intro k hk
      rcases List.mem_cons.1 hk with rfl | hk
      · exact ⟨p, rest, e, c1, c2⟩
      · exact ih hc' k hk
  unfold KeepsApart at hk
  have hsub : ∀ g ∈ gs.filter (fun g => decide (g.apid ∈ sel)), g ∈ gs := fun g hg => (List.mem_filter.1 hg).1
  generalize gs.filter (fun g => decide (g.apid ∈ sel)) = fs at hk hsub
  induction fs with
  | nil => trivial
  | cons g fs ih =>
    obtain ⟨p, rest, e, c1, c2⟩ := hparts g (hsub g (by simp))
    refine ⟨⟨p, rest, e, c1, c2, ?_⟩, ih (fun l g' h r he => hk (g :: l) g' h r (by rw [he]; rfl)) (fun k hk => hsub k (by simp [hk]))⟩
    intro hs k hk'
    cases fs with
    | nil => simp at hk'
    | cons h fs =>
      simp only [List.map_cons, List.head?_cons, Option.mem_def, Option.some.injEq] at hk'
      subst hk'
      rcases hk [] g h fs rfl with ⟨q, hq, hf⟩ | hne'
      · rw [e, List.cons.injEq] at hq
        rw [hq.1] at hs
        simp [Packet.isStandalone] at hs
        exact absurd (BitVec.eq_of_toNat_eq (by rw [hf]; rfl)) hs
      · have hh := hsub h (by simp)
        cases hp : h.packets with
        | nil => exact absurd hp (hne h hh)
        | cons q qs =>
          simp only [List.head?_cons, Option.map_some, ne_eq, Option.some.injEq]
          rw [hapid h hh q (by simp [hp]), hapid g (hsub g (by simp)) p (by simp [e])]
          exact hne'

/-- Filtering a file leaves the selected groups as they are, when it keeps them apart. -/
theorem filtered_groups {b : Build} {τ : Epoch → Int} (hτ : τ minEpoch < τ maxEpoch) {f f' : MFile} (hd : f.reader.Delivers f.content)
    (hd' : f'.reader.Delivers f'.content) {incl excl sel : List U16} (hne : incl ≠ [] ∨ excl ≠ []) (hsel : ∀ a, ApidPasses incl excl a ↔ a ∈ sel)
    {w : List (List U8)} (h : Runs b τ f.reader incl excl none none (.ok w)) (hw : f'.content = w.flatten) {gs : List PacketGroup} (hgs : FileGroups f gs)
    (hk : KeepsApart sel gs) :
    ∃ gs', FileGroups f' gs' ∧ gs'.map (fun g => g.packets.map fun p => (p.header, p.data)) =
      (gs.filter fun g => decide (g.apid ∈ sel)).map (fun g => g.packets.map fun p => (p.header, p.data)) := by
  obtain ⟨ps, s, s', c1, c2⟩ := hgs
  obtain ⟨gs0, s0, k1, k2, k3⟩ := C11_partition ps
  have : gs0 = gs := map_ok_inj (k1.unique c2).1
  subst this
  obtain ⟨qs, ⟨t, hq⟩, hqp⟩ := C53_redecode b τ hτ f.content f.reader hd ps ⟨s, c1⟩ incl excl hne w h f'.reader (hw ▸ hd')
  have hps : ps.filter (fun p => decide (ApidPasses incl excl p.header.apid)) =
      ((gs0.filter fun g => decide (g.apid ∈ sel)).map PacketGroup.packets).flatten := by
    rw [← k2]
    clear k1 k2 c1 c2 hk hqp
    induction gs0 with
    | nil => rfl
    | cons g gs ih =>
      rw [List.flatMap_cons, List.filter_append, ih (fun k hk => k3 k (by simp [hk])), List.filter_cons]
      have hg := (k3 g (by simp)).2
      by_cases hm : g.apid ∈ sel
      · have : g.packets.filter (fun p => decide (ApidPasses incl excl p.header.apid)) = g.packets := by
          rw [List.filter_eq_self]
          intro p hp
          rw [hg p hp]
          simpa [hsel] using hm
        rw [this]
        simp [hm]
      · have : g.packets.filter (fun p => decide (ApidPasses incl excl p.header.apid)) = [] := by
          rw [List.filter_eq_nil_iff]
          intro p hp
          rw [hg p hp]
          simpa [hsel] using hm
        rw [this]
        simp [hm]
  have hcut : CutWhereApidChanges (gs0.map PacketGroup.packets) := ((C12_exact ps _).1 ⟨gs0, _, k1, rfl⟩).2
  have hcut' := cut_filter sel gs0 (fun g hg => (k3 g hg).2) (fun g hg => (k3 g hg).1) hcut hk
  rw [hps] at hqp
  obtain ⟨ls, e1, e2⟩ := split_like _ _ qs hqp
  obtain ⟨out, s1, d1, d2⟩ := (C12_exact qs ls).2 ⟨e1, cut_congr _ _ e2 hcut'⟩
  refine ⟨out, ⟨qs, _, _, hq, d1⟩, ?_⟩
  rw [← d2, List.map_map, List.map_map] at e2
  exact e2

/-- Two merges of the same groups, with the same order values, write the same. -/
theorem isMerge_same {Path : Type} [DecidableEq Path] {b : Build} {τ : Epoch → Int} {m m' : Merger Path} {files files' : Path → Option MFile}
    (hrank : ∀ a, rank m' a = rank m a)
    (h1 : ∀ e, Inputs b τ m files e → ∃ e', Inputs b τ m' files' e' ∧ e'.key τ = e.key τ)
    (h2 : ∀ e', Inputs b τ m' files' e' → ∃ e, Inputs b τ m files e ∧ e'.key τ = e.key τ ∧ e'.bytes = e.bytes)
    (hcopy : ∀ x y, Inputs b τ m files x → Inputs b τ m files y → x.key τ = y.key τ → x.bytes = y.bytes)
    (hsep : ∀ x y, Inputs b τ m files x → Inputs b τ m files y → τ x.time = τ y.time → rank m x.apid = rank m y.apid → x.key τ = y.key τ)
    (out out' : List (List U8)) (es es' : List (Entry Path)) (hm : IsMerge b τ m files out es) (hm' : IsMerge b τ m' files' out' es') : out = out' := by
  have hperm : (es.map (Entry.key τ)).Perm (es'.map (Entry.key τ)) := by
    rw [List.perm_ext_iff_of_nodup hm.distinct hm'.distinct]
    intro k
    constructor
    · intro hk
      obtain ⟨e, he, rfl⟩ := List.mem_map.1 hk
      obtain ⟨e', i', hk'⟩ := h1 e (hm.inputs e he)
      rw [← hk']
      exact hm'.complete e' i'
    · intro hk
      obtain ⟨e', he', rfl⟩ := List.mem_map.1 hk
      obtain ⟨e, i, hk', _⟩ := h2 e' (hm'.inputs e' he')
      rw [hk']
      exact hm.complete e i
  let krank : Option (U16 × U16) × Int → Int := fun k => match k.1 with | none => rank m 0 | some a => rank m a.1
  let R : Option (U16 × U16) × Int → Option (U16 × U16) × Int → Prop := fun j k => j.2 < k.2 ∨ (j.2 = k.2 ∧ krank j ≤ krank k)
  have hkr0 : ∀ (e : Entry Path), e.group.packets ≠ [] → krank (e.key τ) = rank m e.apid := by
    intro e he
    show (match (e.key τ).1 with | none => rank m 0 | some a => rank m a.1) = _
    cases hp : e.group.packets with
    | nil => exact absurd hp he
    | cons first rest => simp only [Entry.key, Entry.apid, hp, List.head?_cons, Option.map_some]
  have hkr : ∀ e, Inputs b τ m files e → krank (e.key τ) = rank m e.apid := by
    intro e he
    obtain ⟨_, _, _, first, rest, hpk, _, ha⟩ := entryPtr_fields he
    exact hkr0 e (by rw [hpk]; simp)
  have hkr' : ∀ e, Inputs b τ m' files' e → krank (e.key τ) = rank m e.apid := by
    intro e he
    obtain ⟨_, _, _, first, rest, hpk, _, ha⟩ := entryPtr_fields he
    exact hkr0 e (by rw [hpk]; simp)
  have s1 : (es.map (Entry.key τ)).Pairwise R := by
    rw [List.pairwise_map]
    refine hm.sorted.imp_of_mem ?_
    intro x y hx hy hxy
    show τ x.time < τ y.time ∨ (τ x.time = τ y.time ∧ krank (x.key τ) ≤ krank (y.key τ))
    rw [hkr x (hm.inputs x hx), hkr y (hm.inputs y hy)]
    exact hxy
  have s2 : (es'.map (Entry.key τ)).Pairwise R := by
    rw [List.pairwise_map]
    refine hm'.sorted.imp_of_mem ?_
    intro x y hx hy hxy
    show τ x.time < τ y.time ∨ (τ x.time = τ y.time ∧ krank (x.key τ) ≤ krank (y.key τ))
    rw [hkr' x (hm'.inputs x hx), hkr' y (hm'.inputs y hy), ← hrank, ← hrank]
    exact hxy
  have heq : es.map (Entry.key τ) = es'.map (Entry.key τ) := by
    refine List.Perm.eq_of_pairwise (le := R) ?_ s1 s2 hperm
    intro j k hj hk h1' h2'
    obtain ⟨x, hx, rfl⟩ := List.mem_map.1 hj
    obtain ⟨y', hy', rfl⟩ := List.mem_map.1 hk
    have ix := hm.inputs x hx
    obtain ⟨y, iy, hky, _⟩ := h2 y' (hm'.inputs y' hy')
    rw [hky] at h1' h2' ⊢
    have t1 : τ x.time < τ y.time ∨ (τ x.time = τ y.time ∧ krank (x.key τ) ≤ krank (y.key τ)) := h1'
    have t2 : τ y.time < τ x.time ∨ (τ y.time = τ x.time ∧ krank (y.key τ) ≤ krank (x.key τ)) := h2'
    rw [hkr x ix, hkr y iy] at t1 t2
    exact hsep x y ix iy (by omega) (by omega)
  rw [hm.bytes, hm'.bytes]
  have hlen : es.length = es'.length := by simpa using congrArg List.length heq
  apply List.ext_getElem (by simpa using hlen)
  intro i g1 g2
  rw [List.getElem_map, List.getElem_map]
  have g1' : i < es.length := by simpa using g1
  have g2' : i < es'.length := by simpa using g2
  obtain ⟨y, iy, hky, hby⟩ := h2 _ (hm'.inputs _ (List.getElem_mem g2'))
  rw [hby]
  apply hcopy _ _ (hm.inputs _ (List.getElem_mem g1')) iy
  rw [← hky]
  have := congrArg (·[i]?) heq
  simpa [List.getElem?_eq_getElem g1', List.getElem?_eq_getElem g2'] using this

/-- Full statement: when the result of a merge is determined (groups with equal keys are copies, different keys differ in time or order value, see C25),
filtering each input with `ccsds filter` and merging the results gives the file that merging the inputs with `--apids` gives. -/
def C93_full : Prop :=
  ∀ (b : Build) (τ : Epoch → Int) (m : Merger Nat) (files files' : Nat → Option MFile) (incl excl sel : List U16) (out out' : List (List U8)),
    τ minEpoch < τ maxEpoch → Readable files → Readable files' → m.apids? = none →
    (incl ≠ [] ∨ excl ≠ []) → sel ≠ [] → (∀ a, ApidPasses incl excl a ↔ a ∈ sel) → Filtered b τ incl excl m.paths files files' →
    (∀ x y, Inputs b τ (m.withApids sel) files x → Inputs b τ (m.withApids sel) files y → x.key τ = y.key τ → x.bytes = y.bytes) →
    (∀ x y, Inputs b τ (m.withApids sel) files x → Inputs b τ (m.withApids sel) files y → τ x.time = τ y.time → rank m x.apid = rank m y.apid →
      x.key τ = y.key τ) →
    Merger.Merges b τ (m.withApids sel) files (.ok out) → Merger.Merges b τ m files' (.ok out') → out'.flatten = out.flatten

theorem decode_congr (b : Build) (d : TimecodeDecoder) (p q : Packet) (h : p.header = q.header) (hd : p.data = q.data) : d.decode b p = d.decode b q := by
  unfold TimecodeDecoder.decode
  rw [h, hd]

theorem eligible_congr {b : Build} {τ : Epoch → Int} {d : TimecodeDecoder} {lo hi : Epoch} {sel sel' : List U16} {g g' : PacketGroup} {t : Epoch}
    (hp : g'.packets.map (fun p => (p.header, p.data)) = g.packets.map fun p => (p.header, p.data))
    (hsel : ∀ p ∈ g.packets, (sel = [] ∨ p.header.apid ∈ sel) → (sel' = [] ∨ p.header.apid ∈ sel'))
    (h : Eligible b τ d lo hi sel g t) : Eligible b τ d lo hi sel' g' t := by
  obtain ⟨first, rest, e, h1, h2, h3, h4, h5⟩ := h
  rw [e] at hp
  cases hg : g'.packets with
  | nil => rw [hg] at hp; simp at hp
  | cons first' rest' =>
    rw [hg, List.map_cons, List.map_cons, List.cons.injEq, Prod.mk.injEq] at hp
    refine ⟨first', rest', hg, by rw [hp.1.1]; exact h1, ?_, h3, h4, by rw [hp.1.1]; exact hsel first (by rw [e]; simp) h5⟩
    rw [decode_congr b d _ _ hp.1.1 hp.1.2]
    exact h2

theorem entry_congr {Path : Type} (τ : Epoch → Int) (p : Path) (t : Epoch) {g g' : PacketGroup}
    (hp : g'.packets.map (fun p => (p.header, p.data)) = g.packets.map fun p => (p.header, p.data)) :
    (⟨p, g', t⟩ : Entry Path).key τ = (⟨p, g, t⟩ : Entry Path).key τ ∧ (⟨p, g', t⟩ : Entry Path).bytes = (⟨p, g, t⟩ : Entry Path).bytes := by
  constructor
  · simp only [Entry.key, Prod.mk.injEq, and_true]
    have := congrArg (fun l => (List.head? l).map fun x => (x.1.apid, x.1.sequenceId)) hp
    simpa [List.head?_map, Function.comp_def] using this
  · simp only [Entry.bytes, List.flatMap]
    have := congrArg (fun l => (List.map Prod.snd l).flatten) hp
    simpa [List.map_map, Function.comp_def] using this

theorem runs_decodes {b : Build} {τ : Epoch → Int} {bs : List U8} {r : Reader} {incl excl : List U16} (hne : incl ≠ [] ∨ excl ≠ []) (hd : r.Delivers bs)
    {w : List (List U8)} (h : Runs b τ r incl excl none none (.ok w)) :
    ∃ (ps : List Packet) (s : PacketDecoder), Collects PacketDecoder.next (PacketDecoder.new r) (ps.map .ok) (some s) := by
  obtain ⟨ps, rest, e, c1, _⟩ := C04_aux bs.length bs r 0 (Nat.le_refl _) hd
  generalize hr : FResult.ok w = res at h
  cases h with
  | noFilters h1 h2 => rcases hne with h | h <;> contradiction
  | run _ h =>
    simp only [Option.isSome_none, Bool.or_self, Bool.false_eq_true, ↓reduceIte] at h
    obtain ⟨qs, e', k1, rfl, rfl⟩ := h
    obtain ⟨rfl, rfl⟩ := k1.unique (mapWhile_collects _ _ _ _ c1)
    cases e' with
    | none => simp at hr
    | some s => exact ⟨_, s, c1⟩

/-- C93: it holds when the filter keeps the segmented groups of an APID apart (in particular when the selected packets are unsegmented). -/
theorem C93_partial {Path : Type} [DecidableEq Path] (b : Build) (τ : Epoch → Int) (m : Merger Path) (files files' : Path → Option MFile) (incl excl sel : List U16)
    (out out' : List (List U8)) (hτ : τ minEpoch < τ maxEpoch) (hfiles : Readable files) (hfiles' : Readable files') (hm : m.apids? = none)
    (hne : incl ≠ [] ∨ excl ≠ []) (hne' : sel ≠ []) (hsel : ∀ a, ApidPasses incl excl a ↔ a ∈ sel) (hf : Filtered b τ incl excl m.paths files files')
    (hcopy : ∀ x y, Inputs b τ (m.withApids sel) files x → Inputs b τ (m.withApids sel) files y → x.key τ = y.key τ → x.bytes = y.bytes)
    (hsep : ∀ x y, Inputs b τ (m.withApids sel) files x → Inputs b τ (m.withApids sel) files y → τ x.time = τ y.time → rank m x.apid = rank m y.apid →
      x.key τ = y.key τ)
    (hk : ∀ p ∈ m.paths, ∀ f gs, files p = some f → FileGroups f gs → KeepsApart sel gs)
    (h : Merger.Merges b τ (m.withApids sel) files (.ok out)) (h' : Merger.Merges b τ m files' (.ok out')) : out' = out := by
  have hap : m.apids = [] := by simp [Merger.apids, hm]
  have hap' : (m.withApids sel).apids = sel := rfl
  obtain ⟨es, hes⟩ := C21_merge b τ _ files hfiles out h
  obtain ⟨es', hes'⟩ := C21_merge b τ m files' hfiles' out' h'
  refine (isMerge_same (m := m.withApids sel) (m' := m) (fun _ => rfl) ?_ ?_ hcopy hsep out out' es es' hes hes').symm
  · rintro ⟨p, g, t⟩ ⟨hp, f, gs, hf1, hgs, hg, he⟩
    obtain ⟨f0, f', w, e0, e1, e2, e3⟩ := hf p hp
    simp only at hp hf1 hg he
    rw [hf1] at e0
    cases e0
    obtain ⟨gs', k1, k2⟩ := filtered_groups hτ (hfiles _ _ hf1) (hfiles' _ _ e1) hne hsel e2 e3 hgs (hk p hp f gs hf1 hgs)
    have hmem : g ∈ gs.filter (fun g => decide (g.apid ∈ sel)) := by
      refine List.mem_filter.2 ⟨hg, ?_⟩
      obtain ⟨first, rest, ep, _, _, _, _, hs⟩ := he
      rw [hap'] at hs
      have hap1 : first.header.apid ∈ sel := by rcases hs with hs | hs; exact absurd hs hne'; exact hs
      obtain ⟨ps, s, s', c1, c2⟩ := hgs
      obtain ⟨gs0, s0, q1, q2, q3⟩ := C11_partition ps
      have : gs0 = gs := map_ok_inj (q1.unique c2).1
      subst this
      rw [(q3 g hg).2 first (by rw [ep]; simp)] at hap1
      simpa using hap1
    have := List.mem_map_of_mem (f := fun g => g.packets.map fun p => (p.header, p.data)) hmem
    rw [← k2] at this
    obtain ⟨g', hg', eg⟩ := List.mem_map.1 this
    refine ⟨⟨p, g', t⟩, ⟨hp, f', gs', e1, k1, hg', eligible_congr eg (fun _ _ _ => .inl hap) he⟩, (entry_congr τ p t eg).1⟩
  · rintro ⟨p, g', t⟩ ⟨hp, f1, gs1, hf1, hgs1, hg1, he⟩
    simp only at hp hf1 hg1 he
    obtain ⟨f, f', w, e0, e1, e2, e3⟩ := hf p hp
    rw [hf1] at e1
    cases e1
    obtain ⟨ps, s, hc⟩ := runs_decodes hne (hfiles _ _ e0) e2
    obtain ⟨gs, s0, q1, q2, q3⟩ := C11_partition ps
    have hgs : FileGroups f gs := ⟨ps, s, s0, hc, q1⟩
    obtain ⟨gs', k1, k2⟩ := filtered_groups hτ (hfiles _ _ e0) (hfiles' _ _ hf1) hne hsel e2 e3 hgs (hk p hp f gs e0 hgs)
    have : gs' = gs1 := Merger.fileGroups_unique k1 hgs1
    subst this
    have := List.mem_map_of_mem (f := fun g => g.packets.map fun p => (p.header, p.data)) hg1
    rw [k2] at this
    obtain ⟨g, hg, eg⟩ := List.mem_map.1 this
    obtain ⟨hg, ha⟩ := List.mem_filter.1 hg
    have ec := entry_congr τ p t eg
    refine ⟨⟨p, g, t⟩, ⟨hp, f, gs, e0, hgs, hg, eligible_congr (g := g') (g' := g) eg ?_ he⟩, ec.1.symm, ec.2.symm⟩
    intro q hq _
    rw [hap']
    right
    have : (q.header, q.data) ∈ g'.packets.map (fun p => (p.header, p.data)) := List.mem_map_of_mem hq
    rw [← eg] at this
    obtain ⟨q', hq', e⟩ := List.mem_map.1 this
    rw [Prod.mk.injEq] at e
    rw [← e.1, (q3 g hg).2 q' hq']
    simpa using ha

/-- Unsegmented packets are kept apart by every filter. -/
theorem C93_unsegmented (sel : List U16) (ps : List Packet) (gs : List PacketGroup) (h : GroupsOf ps gs) (hu : ∀ p ∈ ps, p.header.sequenceFlags.toNat = 3) :
    KeepsApart sel gs := by
  obtain ⟨s, hc⟩ := h
  have hcut := (C12_exact ps _).1 ⟨gs, s, hc, rfl⟩
  intro l g k r he
  left
  have hg : g ∈ gs := (List.mem_filter.1 (by rw [he]; simp : g ∈ gs.filter (fun g => decide (g.apid ∈ sel)))).1
  have hp : ∀ p ∈ g.packets, p.header.sequenceFlags.toNat = 3 := by
    intro p hp
    refine hu p ?_
    rw [← hcut.1]
    exact List.mem_flatten.2 ⟨_, List.mem_map_of_mem hg, hp⟩
  have := hcut.2
  clear he hc hcut hu
  induction gs with
  | nil => simp at hg
  | cons a gs ih =>
    obtain ⟨⟨p, rest, e, c1, _⟩, c2⟩ := this
    rcases List.mem_cons.1 hg with rfl | hg
    · have h3 := hp p (by rw [e]; simp)
      have : rest = [] := c1 (by simp [Packet.isStandalone]; exact BitVec.eq_of_toNat_eq (by rw [h3]; rfl))
      exact ⟨p, by rw [e, this], h3⟩
    · exact ih hg c2

/-! ### It does not hold in general

A file with a segmented group of APID 1 of time day 2, an unsegmented packet of APID 2, and a segmented group of APID 1 of day 1. -/
namespace FMEx

def bytes (day apid fl seq : U8) : List U8 := [0x08#8, apid, fl, seq, 0#8, 7#8] ++ [day, 0#8, 0#8, 0#8, 0#8, 0#8, 0#8, 0#8]
def pkt (day apid fl seq : U8) (off : Nat) : Packet := ⟨⟨0#8, 0#8, true, 0#8 ++ apid, fl >>> 6, 0#8 ++ seq, 7#16⟩, bytes day apid fl seq, off⟩
def late : List U8 := bytes 2#8 1#8 0x40#8 0#8 ++ bytes 2#8 1#8 0x80#8 1#8
def other : List U8 := bytes 2#8 2#8 0xc0#8 0#8
def early : List U8 := bytes 1#8 1#8 0x40#8 2#8 ++ bytes 1#8 1#8 0x80#8 3#8
def whole : List U8 := late ++ other ++ early
def gLate : PacketGroup := ⟨1#16, [pkt 2#8 1#8 0x40#8 0#8 0, pkt 2#8 1#8 0x80#8 1#8 14]⟩
def gOther : PacketGroup := ⟨2#16, [pkt 2#8 2#8 0xc0#8 0#8 28]⟩
def gEarly : PacketGroup := ⟨1#16, [pkt 1#8 1#8 0x40#8 2#8 42, pkt 1#8 1#8 0x80#8 3#8 56]⟩
def gBoth : PacketGroup := ⟨1#16, [pkt 2#8 1#8 0x40#8 0#8 0, pkt 2#8 1#8 0x80#8 1#8 14, pkt 1#8 1#8 0x40#8 2#8 28, pkt 1#8 1#8 0x80#8 3#8 42]⟩

theorem groups : FileGroups (MergeEx.file whole) [gLate, gOther, gEarly] :=
  ⟨[pkt 2#8 1#8 0x40#8 0#8 0, pkt 2#8 1#8 0x80#8 1#8 14, pkt 2#8 2#8 0xc0#8 0#8 28, pkt 1#8 1#8 0x40#8 2#8 42, pkt 1#8 1#8 0x80#8 3#8 56], _, _,
    .step rfl (.step rfl (.step rfl (.step rfl (.step rfl (.done rfl))))), .step rfl (.step rfl (.step rfl (.done rfl)))⟩

theorem decodes : Decodes (MergeEx.file whole).reader
    [pkt 2#8 1#8 0x40#8 0#8 0, pkt 2#8 1#8 0x80#8 1#8 14, pkt 2#8 2#8 0xc0#8 0#8 28, pkt 1#8 1#8 0x40#8 2#8 42, pkt 1#8 1#8 0x80#8 3#8 56] :=
  ⟨_, .step rfl (.step rfl (.step rfl (.step rfl (.step rfl (.done rfl)))))⟩

/-- Selecting both APIDs keeps the groups apart: the hypothesis of `C93_partial` that is not in `C93_full`. -/
example : KeepsApart [1#16, 2#16] [gLate, gOther, gEarly] := by
  intro l g h r he
  right
  have he : [gLate, gOther, gEarly] = l ++ g :: h :: r := he
  match l, he with
  | [], he => cases he; decide
  | [_], he => cases he; decide
  | _ :: _ :: l, he =>
    have := congrArg List.length he
    simp at this
    omega

theorem groups' : FileGroups (MergeEx.file (late ++ early)) [gBoth] :=
  ⟨gBoth.packets, _, _, .step rfl (.step rfl (.step rfl (.step rfl (.done rfl)))), .step rfl (.done rfl)⟩

/-- 256 days after 1958-01-01, `d` times. -/
def time (d : Nat) : Epoch := ⟨.utc, (daysTo1958 + 256 * d) * 86400 * 1000000000⟩

theorem decLate (b : Build) (seq fl : U8) (off : Nat) : MergeEx.dec.decode b (pkt 2#8 1#8 fl seq off) = .ret (.ok (time 2)) := by
  have : MergeEx.dec.decode b (pkt 2#8 1#8 fl seq off) = Timecode.decode b (.cds 2 2) [2#8, 0#8, 0#8, 0#8, 0#8, 0#8, 0#8, 0#8] := rfl
  rw [this]
  cases b with | mk o => cases o <;> decide

theorem decEarly (b : Build) (seq fl : U8) (off : Nat) : MergeEx.dec.decode b (pkt 1#8 1#8 fl seq off) = .ret (.ok (time 1)) := by
  have : MergeEx.dec.decode b (pkt 1#8 1#8 fl seq off) = Timecode.decode b (.cds 2 2) [1#8, 0#8, 0#8, 0#8, 0#8, 0#8, 0#8, 0#8] := rfl
  rw [this]
  cases b with | mk o => cases o <;> decide

def pLate : Ptr Nat := ⟨0, 0, 28, time 2, 1#16, 0#16, 1⟩
def pEarly : Ptr Nat := ⟨0, 42, 28, time 1, 1#16, 2#16, 1⟩
def pBoth : Ptr Nat := ⟨0, 0, 56, time 2, 1#16, 0#16, 1⟩

theorem loop (b : Build) : (MergeEx.merger.withApids [1#16]).pointersLoop b MergeEx.tau 0 [gLate, gOther, gEarly] [] = .ret [pLate, pEarly] := by
  cases b with | mk o => cases o <;> rfl

theorem loop' (b : Build) : MergeEx.merger.pointersLoop b MergeEx.tau 0 [gBoth] [] = .ret [pBoth] := by
  cases b with | mk o => cases o <;> rfl

theorem merges (b : Build) : Merger.Merges b MergeEx.tau (MergeEx.merger.withApids [1#16]) (MergeEx.files whole) (.ok [early, late]) :=
  MergeEx.merges_of (idx := [pEarly, pLate]) rfl groups (loop b) (by simp) (List.Perm.swap _ _ _) (by decide)

theorem merges' (b : Build) : Merger.Merges b MergeEx.tau MergeEx.merger (MergeEx.files (late ++ early)) (.ok [late ++ early]) :=
  MergeEx.merges_of (idx := [pBoth]) rfl groups' (loop' b) (by simp) (List.Perm.refl _) (by decide)

theorem inputs {b : Build} {e : Entry Nat} (h : Inputs b MergeEx.tau (MergeEx.merger.withApids [1#16]) (MergeEx.files whole) e) :
    e = ⟨0, gLate, time 2⟩ ∨ e = ⟨0, gEarly, time 1⟩ := by
  obtain ⟨p, g, t⟩ := e
  obtain ⟨hp, f, gs, hf, hgs, hg, he⟩ := h
  simp only at hp hf hg he
  have hp : p = 0 := by simpa [MergeEx.merger, Merger.new, Merger.withApids] using hp
  subst hp
  have : f = MergeEx.file whole := by
    have : MergeEx.files whole 0 = some (MergeEx.file whole) := rfl
    rw [this] at hf
    exact (Option.some.inj hf).symm
  subst this
  have := Merger.fileGroups_unique hgs groups
  subst this
  obtain ⟨first, rest, ep, _, hd, _, _, hs⟩ := he
  simp only [List.mem_cons, List.not_mem_nil, or_false] at hg
  rcases hg with rfl | rfl | rfl
  · have e1 : pkt 2#8 1#8 0x40#8 0#8 0 = first := (List.cons.inj ep).1
    subst e1
    have := (decLate b 0#8 0x40#8 0).symm.trans hd
    simp only [Outcome.ret.injEq, Except.ok.injEq] at this
    exact .inl (by rw [this])
  · have e1 : pkt 2#8 2#8 0xc0#8 0#8 28 = first := (List.cons.inj ep).1
    subst e1
    exact absurd hs (by decide)
  · have e1 : pkt 1#8 1#8 0x40#8 2#8 42 = first := (List.cons.inj ep).1
    subst e1
    have := (decEarly b 2#8 0x40#8 42).symm.trans hd
    simp only [Outcome.ret.injEq, Except.ok.injEq] at this
    exact .inr (by rw [this])

end FMEx

/-- With `--exclude` of the APID between them, the two groups become one: the early packets are written after the late ones. -/
theorem C93_violated : ¬ C93_full := by
  intro h
  have hf : Filtered ⟨true⟩ MergeEx.tau [1#16] [] MergeEx.merger.paths (MergeEx.files FMEx.whole) (MergeEx.files (FMEx.late ++ FMEx.early)) := by
    intro p hp
    have hp : p = 0 := by simpa [MergeEx.merger, Merger.new] using hp
    subst hp
    refine ⟨_, _, [FMEx.bytes 2#8 1#8 0x40#8 0#8, FMEx.bytes 2#8 1#8 0x80#8 1#8, FMEx.bytes 1#8 1#8 0x40#8 2#8, FMEx.bytes 1#8 1#8 0x80#8 3#8], rfl, rfl, ?_, by decide⟩
    exact (C53_untimed ⟨true⟩ MergeEx.tau (by decide) _ _ FMEx.decodes [1#16] [] (by simp) _).2 (by decide +kernel)
  have := h ⟨true⟩ MergeEx.tau MergeEx.merger _ _ [1#16] [] [1#16] _ _ (by decide) (MergeEx.readable _ (by decide)) (MergeEx.readable _ (by decide)) rfl
    (by simp) (by simp) (by intro a; simp [ApidPasses]) hf
    (by
      intro x y hx hy hk
      rcases FMEx.inputs hx with rfl | rfl <;> rcases FMEx.inputs hy with rfl | rfl
      · rfl
      · exact absurd hk (by decide)
      · exact absurd hk (by decide)
      · rfl)
    (by
      intro x y hx hy ht _
      rcases FMEx.inputs hx with rfl | rfl <;> rcases FMEx.inputs hy with rfl | rfl
      · rfl
      · exact absurd ht (by decide)
      · exact absurd ht (by decide)
      · rfl)
    (FMEx.merges _) (FMEx.merges' _)
  exact absurd this (by decide)

end Ccsds
