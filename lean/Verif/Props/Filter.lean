import Verif.Model.Filter
import Verif.Spec.Filter
import Verif.Proofs.Merge
import Verif.Props.Timecode
/-!
# C53: `ccsds filter`
-/
namespace Ccsds
open Spec Filter

/-! ## Auxiliary -/

theorem map_ok_inj {α : Type} {x y : List α} (h : x.map (Except.ok (ε := Error)) = y.map Except.ok) : x = y :=
  (List.map_inj_right (fun x y h => by cases h; rfl)).1 h

theorem decoder_decode (b : Build) (p : Packet) (h : 6 ≤ p.data.length) :
    (∀ t, cdsTime p = some t → decoder.decode b p = .ret (.ok t)) ∧
    (cdsTime p = none → ∃ e, decoder.decode b p = .ret (.error e)) := by
  have e : decoder.decode b p = Timecode.decode b (.cds 2 2) (p.data.drop 6) := by
    have := C19_decode b (.cds 2 2) [] p
    rw [if_neg (by omega)] at this
    exact this
  obtain ⟨h1, h2⟩ := C14_decode b 2 2 ⟨.inl rfl, .inr rfl⟩ (p.data.drop 6)
  unfold cdsTime
  constructor
  · intro t ht
    split at ht
    · cases ht
    · rename_i hl
      cases ht
      rw [e, h2 (by simp; omega)]
  · intro ht
    split at ht
    · rename_i hl
      exact ⟨_, by rw [e, h1 (by simp; omega)]⟩
    · cases ht

theorem dropFlag_iff (p : Packet) (hf : p.header.sequenceFlags.toNat < 4) :
    (p.isLast || p.isCont) = !(p.header.sequenceFlags.toNat == 1 || p.header.sequenceFlags.toNat == 3) := by
  simp only [Packet.isLast, Packet.isCont, PrimaryHeader.SEQ_LAST, PrimaryHeader.SEQ_CONTINUATION]
  generalize hx : p.header.sequenceFlags = x at *
  have e2 : (x == 2) = (x.toNat == 2) := by
    rw [Bool.eq_iff_iff]; simp only [beq_iff_eq]
    constructor
    · intro h; rw [h]; rfl
    · intro h; apply BitVec.eq_of_toNat_eq; rw [h]; rfl
  have e0 : (x == 0) = (x.toNat == 0) := by
    rw [Bool.eq_iff_iff]; simp only [beq_iff_eq]
    constructor
    · intro h; rw [h]; rfl
    · intro h; apply BitVec.eq_of_toNat_eq; rw [h]; rfl
  rw [e2, e0]
  have : x.toNat = 0 ∨ x.toNat = 1 ∨ x.toNat = 2 ∨ x.toNat = 3 := by omega
  rcases this with h | h | h | h <;> rw [h] <;> rfl

/-- Packets as the decoder yields them. -/
def Regular (p : Packet) : Prop := 6 ≤ p.data.length ∧ p.header.sequenceFlags.toNat < 4

theorem wellFormed_regular {p : Packet} (h : p.WellFormed) : Regular p := by
  obtain ⟨h1, h2⟩ := h
  have h7 := packetLen_ge p.data
  refine ⟨by omega, ?_⟩
  obtain ⟨h, e, _, _, _, _, hf, _⟩ := C01_fields p.data (by omega)
  rw [h2] at e
  cases e
  rw [hf]
  exact field_lt _ _ _

/-- The item a group becomes. -/
def itemOf (g : PacketGroup) : Option Item :=
  match g.packets with
  | [] => none
  | first :: _ =>
    if first.header.sequenceFlags.toNat == 1 || first.header.sequenceFlags.toNat == 3 then
      (cdsTime first).map fun t => ⟨groupBytes g, first.header.apid, t⟩
    else none

theorem timed_eq (b : Build) (g : PacketGroup) (h : ∀ p ∈ g.packets, Regular p) : timed b g = .ret (itemOf g) := by
  unfold timed itemOf groupBytes
  cases hg : g.packets with
  | nil => rfl
  | cons first rest =>
    obtain ⟨h6, h4⟩ := h first (by simp [hg])
    simp only [dropFlag_iff first h4]
    cases hfl : (first.header.sequenceFlags.toNat == 1 || first.header.sequenceFlags.toNat == 3) with
    | false => rfl
    | true =>
      simp only [Bool.not_true, Bool.false_eq_true, ↓reduceIte]
      obtain ⟨h1, h2⟩ := decoder_decode b first h6
      cases hc : cdsTime first with
      | none =>
        obtain ⟨e, he⟩ := h2 hc
        rw [he]
        rfl
      | some t =>
        rw [h1 t hc]
        rfl

theorem timedAll_eq (b : Build) (gs : List PacketGroup) (h : ∀ g ∈ gs, ∀ p ∈ g.packets, Regular p) :
    timedAll b gs = (gs.filterMap itemOf, true) := by
  induction gs with
  | nil => rfl
  | cons g gs ih =>
    rw [timedAll, timed_eq b g (h g (by simp)), ih (fun x hx => h x (by simp [hx]))]
    cases hi : itemOf g <;> simp [hi]

/-- The bounds that the code really applies: without `--before`, `maxEpoch` takes its place. -/
theorem keep_eq (τ : Epoch → Int) (incl excl : List U16) (before after : Option Epoch) (i : Item)
    (hm : before = none → τ i.stamp < τ maxEpoch) :
    keep τ incl excl before after i = (decide (TimePasses τ before after i.stamp) && decide (ApidPasses incl excl i.apid)) := by
  have hin : (!incl.isEmpty && !incl.contains i.apid) = !decide (incl = [] ∨ i.apid ∈ incl) := by
    cases incl <;> simp
  have hex : (!excl.isEmpty && excl.contains i.apid) = decide (i.apid ∈ excl) := by
    cases excl <;> simp
  have hap : decide (ApidPasses incl excl i.apid) = (decide (incl = [] ∨ i.apid ∈ incl) && !decide (i.apid ∈ excl)) := by
    rw [← decide_not, ← Bool.decide_and]; rfl
  unfold keep
  simp only [hin, hex, hap]
  have htp : decide (TimePasses τ before after i.stamp) =
      ((match after with | none => true | some a => decide (τ a ≤ τ i.stamp)) && (match before with | none => true | some a => decide (τ i.stamp < τ a))) := by
    unfold TimePasses
    cases before <;> cases after <;> simp
  rw [htp]
  generalize decide (incl = [] ∨ i.apid ∈ incl) = x
  generalize decide (i.apid ∈ excl) = y
  cases before with
  | none =>
    have := hm rfl
    cases after with
    | none => simp [Int.not_le.2 this]
    | some a => by_cases h : τ a ≤ τ i.stamp <;> simp [Int.not_le.2 this, h] <;> cases x <;> cases y <;> simp <;> omega
  | some c =>
    cases after with
    | none => by_cases h : τ i.stamp < τ c <;> simp [h] <;> cases x <;> cases y <;> simp <;> omega
    | some a =>
      by_cases h : τ i.stamp < τ c <;> by_cases h' : τ a ≤ τ i.stamp <;> simp [h, h'] <;> cases x <;> cases y <;> simp <;> omega

theorem mapWhile_collects {S α ε : Type} (next : S → Outcome (Option (Except ε α) × S)) (ps : List α) :
    ∀ (s : S) (e : Option S), Collects next s (ps.map .ok) e → Collects (mapWhileOk next) s ps e := by
  induction ps with
  | nil =>
    intro s e h
    cases h with
    | done h => exact .done (by simp only [mapWhileOk, h]; rfl)
    | panicked h => exact .panicked (by simp only [mapWhileOk, h]; rfl)
  | cons a ps ih =>
    intro s e h
    cases h with
    | step h k => exact .step (by simp only [mapWhileOk, h]; rfl) (ih _ _ k)

theorem delivers_packets {bs : List U8} {r : Reader} (hd : r.Delivers bs) {items : List (Except Error Packet)} {e : Option PacketDecoder}
    (h : Collects PacketDecoder.next (PacketDecoder.new r) items e) :
    ∃ ps : List Packet, items = ps.map .ok ∧ ∀ p ∈ ps, p.WellFormed := by
  obtain ⟨ps, rest, h1, _, h3, _⟩ := Merger.collects_items (f := ⟨bs, r⟩) hd h
  exact ⟨ps, h1, h3⟩

theorem decodes_wellFormed {bs : List U8} {r : Reader} (hd : r.Delivers bs) {ps : List Packet} (h : Decodes r ps) :
    ∀ p ∈ ps, p.WellFormed := by
  obtain ⟨s, h⟩ := h
  obtain ⟨qs, h1, h2⟩ := delivers_packets hd h
  rw [map_ok_inj h1]
  exact h2

theorem groupsOf_spec {ps : List Packet} {gs : List PacketGroup} (h : GroupsOf ps gs) :
    gs.flatMap PacketGroup.packets = ps ∧ ∀ g ∈ gs, g.packets ≠ [] := by
  obtain ⟨s, h⟩ := h
  obtain ⟨hs, h1, h2, h3, _⟩ := Merger.collects_groups h
  rw [map_ok_inj h1]
  exact ⟨h2, h3⟩

theorem groups_regular {ps : List Packet} {gs : List PacketGroup} (hw : ∀ p ∈ ps, p.WellFormed) (hg : gs.flatMap PacketGroup.packets = ps) :
    ∀ g ∈ gs, ∀ p ∈ g.packets, Regular p := by
  intro g hgm p hp
  exact wellFormed_regular (hw p (by rw [← hg]; exact List.mem_flatMap.2 ⟨g, hgm, hp⟩))

theorem writes_untimed (τ : Epoch → Int) (incl excl : List U16) (hτ : τ minEpoch < τ maxEpoch) (ps : List Packet) :
    writes τ incl excl none none (ps.map (fun p => ⟨p.data, p.header.apid, minEpoch⟩)) =
      (ps.filter (fun p => decide (ApidPasses incl excl p.header.apid))).map Packet.data := by
  unfold writes
  rw [List.filter_map, List.map_map]
  congr 1
  apply List.filter_congr
  intro p _
  simp only [Function.comp]
  rw [keep_eq _ _ _ _ _ _ (fun _ => hτ)]
  simp [TimePasses]

theorem writes_timed (τ : Epoch → Int) (incl excl : List U16) (before after : Option Epoch) (gs : List PacketGroup)
    (hm : before = none → ∀ g ∈ gs, ∀ first ∈ g.packets.head?, ∀ t ∈ cdsTime first, τ t < τ maxEpoch) :
    writes τ incl excl before after (gs.filterMap itemOf) = (gs.filter (groupPasses τ incl excl before after)).map groupBytes := by
  induction gs with
  | nil => rfl
  | cons g gs ih =>
    have ih := ih (fun hb x hx => hm hb x (by simp [hx]))
    have hm := fun hb => hm hb g (by simp)
    unfold writes at *
    cases hp : g.packets with
    | nil =>
      have e1 : itemOf g = none := by simp [itemOf, hp]
      have e2 : groupPasses τ incl excl before after g = false := by simp [groupPasses, hp]
      rw [List.filterMap_cons_none e1, List.filter_cons_of_neg (by simp [e2]), ih]
    | cons first rest =>
      cases hfl : (first.header.sequenceFlags.toNat == 1 || first.header.sequenceFlags.toNat == 3) with
      | false =>
        have e1 : itemOf g = none := by simp only [itemOf, hp, hfl]; rfl
        have e2 : groupPasses τ incl excl before after g = false := by simp only [groupPasses, hp, hfl]; rfl
        rw [List.filterMap_cons_none e1, List.filter_cons_of_neg (by simp [e2]), ih]
      | true =>
        cases hc : cdsTime first with
        | none =>
          have e1 : itemOf g = none := by simp only [itemOf, hp, hfl, hc]; rfl
          have e2 : groupPasses τ incl excl before after g = false := by simp only [groupPasses, hp, hfl, hc]; rfl
          rw [List.filterMap_cons_none e1, List.filter_cons_of_neg (by simp [e2]), ih]
        | some t =>
          have e1 : itemOf g = some ⟨groupBytes g, first.header.apid, t⟩ := by simp only [itemOf, hp, hfl, hc]; rfl
          have e2 : groupPasses τ incl excl before after g = keep τ incl excl before after ⟨groupBytes g, first.header.apid, t⟩ := by
            rw [keep_eq]
            · simp only [groupPasses, hp, hfl, hc]; rfl
            · intro hb; exact hm hb first (by simp [hp]) t (by simp [hc])
          rw [List.filterMap_cons_some e1, List.filter_cons, List.filter_cons, e2]
          split <;> simp [ih]

/-! ## C53 -/

/-- `filter` refuses to run without any filter, and only then. -/
theorem C53_no_filters (b : Build) (τ : Epoch → Int) (r : Reader) (incl excl : List U16) (before after : Option Epoch) :
    Runs b τ r incl excl before after .noFilters ↔ incl = [] ∧ excl = [] ∧ before = none ∧ after = none := by
  constructor
  · intro h
    generalize hx : FResult.noFilters = x at h
    cases h with
    | noFilters a b c d => exact ⟨a, b, c, d⟩
    | run h _ => split at hx <;> cases hx
  · rintro ⟨a, b, c, d⟩; exact .noFilters a b c d

/-- Without time bounds: exactly the packets with a passing APID are written, each with one write, in input order. (`hτ`: 1900 is before 2100.) -/
theorem C53_untimed (b : Build) (τ : Epoch → Int) (hτ : τ minEpoch < τ maxEpoch) (r : Reader) (ps : List Packet) (hps : Decodes r ps)
    (incl excl : List U16) (hne : incl ≠ [] ∨ excl ≠ []) (res : FResult) :
    Runs b τ r incl excl none none res ↔
      res = .ok ((ps.filter fun p => decide (ApidPasses incl excl p.header.apid)).map Packet.data) := by
  obtain ⟨s, hc⟩ := hps
  have hc' := mapWhile_collects _ _ _ _ hc
  constructor
  · intro h
    cases h with
    | noFilters h1 h2 => rcases hne with h | h <;> contradiction
    | run _ h =>
      simp only [Option.isSome_none, Bool.or_self, Bool.false_eq_true, ↓reduceIte] at h
      obtain ⟨qs, e, k1, rfl, rfl⟩ := h
      obtain ⟨rfl, rfl⟩ := k1.unique hc'
      simp only [Option.isSome_some, ↓reduceIte]
      rw [writes_untimed τ incl excl hτ]
  · rintro rfl
    rw [← writes_untimed τ incl excl hτ]
    refine Runs.run (ends := true) ?_ ?_
    · rintro ⟨h1, h2, _⟩; rcases hne with h | h <;> contradiction
    · exact ⟨ps, some s, hc', rfl, rfl⟩

/-- With a time bound: exactly the groups that pass are written, each with one write, in input order. -/
def C53_full : Prop := ∀ (b : Build) (τ : Epoch → Int) (bs : List U8) (r : Reader) (ps : List Packet) (gs : List PacketGroup) (incl excl : List U16)
  (before after : Option Epoch), (∀ x y, x < y → τ ⟨.utc, x⟩ < τ ⟨.utc, y⟩) → r.Delivers bs → Decodes r ps → GroupsOf ps gs → before.isSome ∨ after.isSome →
  ∀ res, Runs b τ r incl excl before after res ↔ res = .ok ((gs.filter (groupPasses τ incl excl before after)).map groupBytes)

/-- `C53_full` restricted: if `--before` is not given, no time is 2100-01-01 or later. -/
theorem C53_partial (b : Build) (τ : Epoch → Int) (bs : List U8) (r : Reader) (ps : List Packet) (gs : List PacketGroup) (incl excl : List U16)
    (before after : Option Epoch) (hd : r.Delivers bs) (hps : Decodes r ps) (hgs : GroupsOf ps gs) (hb : before.isSome ∨ after.isSome)
    (hm : before = none → ∀ g ∈ gs, ∀ first ∈ g.packets.head?, ∀ t ∈ cdsTime first, τ t < τ ⟨.utc, (daysTo1958 + 51865) * 86400 * 1000000000⟩)
    (res : FResult) :
    Runs b τ r incl excl before after res ↔ res = .ok ((gs.filter (groupPasses τ incl excl before after)).map groupBytes) := by
  have hw := decodes_wellFormed hd hps
  have hg := groupsOf_spec hgs
  obtain ⟨s, hc⟩ := hps
  obtain ⟨s', hc'⟩ := hgs
  have hmax : (⟨.utc, (daysTo1958 + 51865) * 86400 * 1000000000⟩ : Epoch) = maxEpoch := by decide +kernel
  rw [hmax] at hm
  have hbool : (before.isSome || after.isSome) = true := by rcases hb with h | h <;> simp [h]
  have hall := timedAll_eq b gs (groups_regular hw hg.1)
  constructor
  · intro h
    cases h with
    | noFilters _ _ h1 h2 => simp [h1, h2] at hb
    | run _ h =>
      rw [if_pos hbool] at h
      obtain ⟨pitems, e, k1, gitems, s'', k2, k3⟩ := h
      obtain ⟨rfl, rfl⟩ := k1.unique hc
      rw [Merger.oks_map_ok] at k2
      obtain ⟨rfl, _⟩ := k2.unique hc'
      simp only [Merger.oks_map_ok, hall, Prod.mk.injEq] at k3
      rw [← k3.1, ← k3.2, if_pos rfl, writes_timed _ _ _ _ _ _ hm]
  · rintro rfl
    rw [← writes_timed _ _ _ _ _ _ hm]
    refine Runs.run (ends := true) ?_ ?_
    · rintro ⟨_, _, h1, h2⟩; simp [h1, h2] at hb
    · rw [if_pos hbool]
      refine ⟨_, _, hc, _, s', by rw [Merger.oks_map_ok]; exact hc', ?_⟩
      simp only [Merger.oks_map_ok, hall]

/-- What happens instead: `--after` alone behaves as if `--before 2100-01-01` had been given as well. -/
theorem C53_after_alone (b : Build) (τ : Epoch → Int) (r : Reader) (incl excl : List U16) (a : Epoch) (res : FResult) :
    Runs b τ r incl excl none (some a) res ↔ Runs b τ r incl excl (some maxEpoch) (some a) res := by
  have hk : ∀ items, writes τ incl excl none (some a) items = writes τ incl excl (some maxEpoch) (some a) items := by
    intro items
    unfold writes
    congr 1
    apply List.filter_congr
    intro i _
    unfold keep
    by_cases h1 : τ maxEpoch ≤ τ i.stamp <;> by_cases h2 : τ i.stamp < τ a <;> simp [h1, h2]
  constructor
  · intro h
    cases h with
    | noFilters _ _ _ h => cases h
    | run _ h => rw [hk]; exact .run (by simp) h
  · intro h
    cases h with
    | noFilters _ _ h _ => cases h
    | run _ h => rw [← hk]; exact .run (by simp) h

theorem beforePanic_prefix (gs : List PacketGroup) : beforePanic gs <+: gs := by
  unfold beforePanic
  split
  · split
    · exact List.prefix_refl gs
    · exact List.dropLast_prefix gs
  · exact List.nil_prefix

/-- If the packet decoder panics (C03), so does `filter`; what was written by then is a prefix of the selection among the packets (groups) in
front of the oversized packet. -/
theorem C53_panic (b : Build) (τ : Epoch → Int) (hτ : τ minEpoch < τ maxEpoch) (bs : List U8) (r : Reader) (ps : List Packet) (gs : List PacketGroup)
    (incl excl : List U16) (before after : Option Epoch) (hd : r.Delivers bs) (hps : Collects PacketDecoder.next (PacketDecoder.new r) (ps.map .ok) none)
    (hgs : GroupsOf ps gs) (hne : ¬ (incl = [] ∧ excl = [] ∧ before = none ∧ after = none))
    (hm : before = none → ∀ g ∈ gs, ∀ first ∈ g.packets.head?, ∀ t ∈ cdsTime first, τ t < τ maxEpoch)
    (res : FResult) (h : Runs b τ r incl excl before after res) :
    ∃ w, res = .panic w ∧ (before = none → after = none →
        w = (ps.filter fun p => decide (ApidPasses incl excl p.header.apid)).map Packet.data) ∧
      (before.isSome ∨ after.isSome → w <+: (gs.filter (groupPasses τ incl excl before after)).map groupBytes) := by
  obtain ⟨qs, hq, hw⟩ := delivers_packets hd hps
  rw [← map_ok_inj hq] at hw
  have hg := groupsOf_spec hgs
  obtain ⟨s', hc'⟩ := hgs
  cases h with
  | noFilters h1 h2 h3 h4 => exact absurd ⟨h1, h2, h3, h4⟩ hne
  | run _ h =>
    by_cases hb : before.isSome ∨ after.isSome
    · have hbool : (before.isSome || after.isSome) = true := by rcases hb with h | h <;> simp [h]
      rw [if_pos hbool] at h
      obtain ⟨pitems, e, k1, gitems, s'', k2, k3⟩ := h
      obtain ⟨rfl, rfl⟩ := k1.unique hps
      rw [Merger.oks_map_ok] at k2
      obtain ⟨rfl, _⟩ := k2.unique hc'
      obtain ⟨rfl, k4⟩ := k3
      rw [Merger.oks_map_ok, timedAll_eq b _ (fun g hgm => groups_regular hw hg.1 g ((beforePanic_prefix gs).subset hgm))] at k4
      rw [if_neg (by simp)]
      refine ⟨_, rfl, ?_, ?_⟩
      · rintro rfl rfl; simp at hb
      · intro _
        rw [← k4, writes_timed _ _ _ _ _ _ (fun hbn g hgm => hm hbn g ((beforePanic_prefix gs).subset hgm))]
        exact ((beforePanic_prefix gs).filter _).map _
    · have h1 : before = none := by cases before <;> simp at hb ⊢
      have h2 : after = none := by cases after <;> simp at hb ⊢
      subst h1 h2
      simp only [Option.isSome_none, Bool.or_self, Bool.false_eq_true, ↓reduceIte] at h
      obtain ⟨qs, e, k1, rfl, rfl⟩ := h
      obtain ⟨rfl, rfl⟩ := k1.unique (mapWhile_collects _ _ _ _ hps)
      refine ⟨_, if_neg (by simp), ?_, by simp⟩
      intro _ _
      exact writes_untimed τ incl excl hτ _

/-- The decoder yields packets of at most 65536 bytes. -/
theorem decodes_small {bs : List U8} {r : Reader} (hd : r.Delivers bs) {ps : List Packet} (h : Decodes r ps) :
    ∀ p ∈ ps, p.WellFormed ∧ p.data.length ≤ 65536 := by
  obtain ⟨s, h⟩ := h
  obtain ⟨qs, rest, e, h1, _, h3, _⟩ := C04_aux bs.length bs r 0 (by omega) hd
  rw [map_ok_inj (h.unique h1).1]
  exact h3

/-- The output decodes to exactly the selected packets (header and bytes), in order: no packet is cut or merged. -/
theorem C53_redecode (b : Build) (τ : Epoch → Int) (hτ : τ minEpoch < τ maxEpoch) (bs : List U8) (r : Reader) (hd : r.Delivers bs) (ps : List Packet)
    (hps : Decodes r ps) (incl excl : List U16) (hne : incl ≠ [] ∨ excl ≠ []) (w : List (List U8)) (h : Runs b τ r incl excl none none (.ok w))
    (r' : Reader) (hd' : r'.Delivers w.flatten) :
    ∃ qs, Decodes r' qs ∧
      qs.map (fun p => (p.header, p.data)) = (ps.filter fun p => decide (ApidPasses incl excl p.header.apid)).map (fun p => (p.header, p.data)) := by
  have := (C53_untimed b τ hτ r ps hps incl excl hne _).1 h
  cases this
  obtain ⟨qs, s, h1, h2, _⟩ := C05_roundtrip (ps.filter fun p => decide (ApidPasses incl excl p.header.apid)) [] r'
    (fun p hp => decodes_small hd hps p (List.mem_filter.1 hp).1) (by simp [packetLen]) (by simp)
    (by rw [List.append_nil]; unfold wire; rw [List.flatMap_def]; exact hd')
  exact ⟨qs, ⟨s, h1⟩, h2⟩

/-- Filtering the output again with the same lists changes nothing. -/
theorem C53_idempotent (b : Build) (τ : Epoch → Int) (hτ : τ minEpoch < τ maxEpoch) (bs : List U8) (r : Reader) (hd : r.Delivers bs) (ps : List Packet)
    (hps : Decodes r ps) (incl excl : List U16) (hne : incl ≠ [] ∨ excl ≠ []) (w : List (List U8)) (h : Runs b τ r incl excl none none (.ok w))
    (r' : Reader) (hd' : r'.Delivers w.flatten) (res : FResult) : Runs b τ r' incl excl none none res ↔ res = .ok w := by
  obtain ⟨qs, h1, h2⟩ := C53_redecode b τ hτ bs r hd ps hps incl excl hne w h r' hd'
  rw [C53_untimed b τ hτ r' qs h1 incl excl hne]
  have := (C53_untimed b τ hτ r ps hps incl excl hne _).1 h
  cases this
  have e1 : qs.filter (fun p => decide (ApidPasses incl excl p.header.apid)) = qs := by
    rw [List.filter_eq_self]
    intro q hq
    have : (q.header, q.data) ∈ qs.map (fun p => (p.header, p.data)) := List.mem_map_of_mem hq
    rw [h2] at this
    obtain ⟨p, hp, e⟩ := List.mem_map.1 this
    have := (List.mem_filter.1 hp).2
    rw [Prod.mk.injEq] at e
    rw [← e.1]
    exact this
  have e2 : qs.map Packet.data = (ps.filter fun p => decide (ApidPasses incl excl p.header.apid)).map Packet.data := by
    have := congrArg (List.map Prod.snd) h2
    rw [List.map_map, List.map_map] at this
    exact this
  rw [e1, e2]

/-! Concrete: two standalone packets, one of 1963 with APID 1, one of 2137 (`0xff01` days) with APID 2. -/
namespace FilterEx

def late : List U8 := [0x08#8, 2#8, 0xc0#8, 0#8, 0#8, 7#8] ++ [0xff#8, 1#8, 0#8, 0#8, 0#8, 0#8, 0#8, 0#8]
def latePkt (off : Nat) : Packet := ⟨⟨0#8, 0#8, true, 2#16, 3#8, 0#16, 7#16⟩, late, off⟩
def early : List U8 := [0x08#8, 1#8, 0xc0#8, 0#8, 0#8, 7#8] ++ [7#8, 1#8, 0#8, 0#8, 0#8, 0#8, 0#8, 0#8]
def earlyPkt (off : Nat) : Packet := ⟨⟨0#8, 0#8, true, 1#16, 3#8, 0#16, 7#16⟩, early, off⟩
def stream : List U8 := early ++ late

theorem delivers : (Reader.ofBytes stream).Delivers stream := by
  refine ⟨?_, by simp [evBytes, Ev.bytes, Reader.ofBytes], rfl⟩
  intro e he
  simp only [Reader.ofBytes, List.mem_cons, List.not_mem_nil, or_false] at he
  subst he
  exact .inl ⟨stream, by decide, rfl⟩

theorem decodes : Decodes (Reader.ofBytes stream) [earlyPkt 0, latePkt 14] := ⟨_, .step rfl (.step rfl (.done rfl))⟩
theorem groups : GroupsOf [earlyPkt 0, latePkt 14] [⟨1#16, [earlyPkt 0]⟩, ⟨2#16, [latePkt 14]⟩] := ⟨_, .step rfl (.step rfl (.done rfl))⟩
def tau : Epoch → Int := fun e => e.nanos

/-- The hypotheses of `C53_partial` hold with both bounds: 1900 ≤ t < 2000 selects the first packet. -/
example (b : Build) : Runs b tau (Reader.ofBytes stream) [] [] (some ⟨.utc, 36525 * 86400 * 1000000000⟩) (some ⟨.utc, 0⟩) (.ok [early]) :=
  (C53_partial b tau stream _ _ _ [] [] _ _ delivers decodes groups (.inl rfl) (by simp) _).2 (by decide +kernel)

/-- The hypotheses of `C53_untimed` hold: `--exclude 1` selects the second packet. -/
example (b : Build) : Runs b tau (Reader.ofBytes stream) [] [1#16] none none (.ok [late]) :=
  (C53_untimed b tau (by decide) _ _ decodes [] [1#16] (by simp) _).2 (by decide +kernel)

end FilterEx

/-- `--after 1900-01-01` drops the packet of 2137. -/
theorem C53_violated : ¬ C53_full := by
  intro h
  have h1 := (h ⟨true⟩ FilterEx.tau _ _ _ _ [] [] none (some ⟨.utc, 0⟩) (by intro x y hxy; show (x : Int) < (y : Int); omega) FilterEx.delivers FilterEx.decodes FilterEx.groups (.inr rfl) _).2 rfl
  rw [C53_after_alone, C53_partial ⟨true⟩ FilterEx.tau _ _ _ _ [] [] _ _ FilterEx.delivers FilterEx.decodes FilterEx.groups (.inl rfl) (by simp)] at h1
  exact absurd h1 (by decide +kernel)

end Ccsds
