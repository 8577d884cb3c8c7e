import Verif.Props.Info
import Verif.Props.Filter
import Verif.Props.Order
import Verif.Props.FilterMerge
/-!
# C110: damaged packet data
-/
namespace Ccsds
open Spec

/-- The two byte strings only differ inside the packets `ps` of the first, behind their primary headers. -/
def DamagedData (bs bs' : List U8) (ps : List Packet) : Prop :=
  bs'.length = bs.length ∧ ∀ i, bs[i]? ≠ bs'[i]? → ∃ p ∈ ps, p.offset + 6 ≤ i ∧ i < p.offset + p.data.length

/-- The packet `p'` is `p` with damaged data: header, offset and length are the same, and a byte only differs where the streams differ. -/
structure SameButData (bs bs' : List U8) (p p' : Packet) : Prop where
  header : p'.header = p.header
  offset : p'.offset = p.offset
  length : p'.data.length = p.data.length
  primary : p'.data.take 6 = p.data.take 6
  bytes : ∀ j, p.data[j]? ≠ p'.data[j]? → bs[p.offset + j]? ≠ bs'[p.offset + j]?

/-- One element of the one list for each element of the other. -/
def Pairs {α : Type} (R : α → α → Prop) : List α → List α → Prop
  | [], [] => True
  | p :: ps, q :: qs => R p q ∧ Pairs R ps qs
  | _, _ => False

theorem Pairs.imp {α : Type} {R R' : α → α → Prop} (h : ∀ p q, R p q → R' p q) : ∀ {ps qs : List α}, Pairs R ps qs → Pairs R' ps qs := by
  intro ps
  induction ps with
  | nil => intro qs hp; cases qs <;> first | trivial | exact hp.elim
  | cons p ps ih =>
    intro qs hp
    cases qs with
    | nil => exact hp.elim
    | cons q qs => exact ⟨h p q hp.1, ih hp.2⟩

theorem data_errors (n : Nat) : ∀ (bs bs' : List U8) (r r' : Reader) (o : Nat) (ps : List Packet) (e : Option PacketDecoder), bs.length ≤ n → r.Delivers bs → r'.Delivers bs' →
    Collects PacketDecoder.next ⟨r, o⟩ (ps.map .ok) e → bs'.length = bs.length → (∀ i, bs[i]? ≠ bs'[i]? → ∃ p ∈ ps, p.offset + 6 ≤ o + i ∧ o + i < p.offset + p.data.length) →
    ∃ ps' e', Collects PacketDecoder.next ⟨r', o⟩ (ps'.map .ok) e' ∧ e'.isSome = e.isSome ∧
      Pairs (fun p p' => p'.header = p.header ∧ p'.offset = p.offset ∧ p'.data.length = p.data.length ∧ p'.data.take 6 = p.data.take 6 ∧ o ≤ p.offset ∧
        ∀ j, p.data[j]? ≠ p'.data[j]? → bs[p.offset - o + j]? ≠ bs'[p.offset - o + j]?) ps ps' := by
  induction n with
  | zero =>
    intro bs bs' r r' o ps e hl hd hd' hc hlen _
    obtain rfl := List.eq_nil_of_length_eq_zero (by omega : bs.length = 0)
    obtain rfl := List.eq_nil_of_length_eq_zero (by simpa using hlen : bs'.length = 0)
    obtain ⟨h1, rfl⟩ := hc.unique (.done (next_none hd o (by simp [packetLen]) (by simp)))
    obtain rfl := List.map_eq_nil_iff.1 h1
    exact ⟨[], _, .done (next_none hd' o (by simp [packetLen]) (by simp)), rfl, trivial⟩
  | succ n ih =>
    intro bs bs' r r' o ps e hl hd hd' hc hlen hdiff
    have h7 := packetLen_ge bs
    have same_of_nil : ps = [] → bs' = bs := by
      intro h
      refine List.ext_getElem? fun i => Decidable.byContradiction fun hne => ?_
      obtain ⟨p, hp, _⟩ := hdiff i fun h => hne h.symm
      rw [h] at hp; cases hp
    by_cases hp : 6 ≤ bs.length ∧ 65536 < packetLen bs
    · obtain ⟨h1, rfl⟩ := hc.unique (.panicked (next_panic hd o hp.1 hp.2))
      obtain rfl := List.map_eq_nil_iff.1 h1
      obtain rfl := same_of_nil rfl
      exact ⟨[], _, .panicked (next_panic hd' o hp.1 hp.2), rfl, trivial⟩
    · by_cases hcm : packetLen bs ≤ bs.length
      · obtain ⟨h, r1, e1, hd1, hn⟩ := next_complete hd o hcm (by omega)
        obtain ⟨qs, rest, x, hcol, hb, hw, ho, _, _⟩ := C04_aux n (bs.drop (packetLen bs)) r1 (o + packetLen bs) (by simp; omega) hd1
        obtain ⟨h1, rfl⟩ := hc.unique (.step hn hcol)
        have hps : ps = ⟨h, bs.take (packetLen bs), o⟩ :: qs := by
          cases ps with
          | nil => cases h1
          | cons p ps =>
            simp only [List.map_cons, List.cons.injEq, Except.ok.injEq] at h1
            obtain ⟨rfl, h1⟩ := h1
            exact congrArg _ (List.map_inj_right (fun _ _ h => Except.ok.inj h) |>.1 h1)
        subst hps
        have hge : ∀ q ∈ qs, o + packetLen bs ≤ q.offset := by
          intro q hq
          obtain ⟨s, t, rfl⟩ := List.append_of_mem hq
          have := ho s q t rfl
          omega
        have h6 : bs'.take 6 = bs.take 6 := by
          refine List.ext_getElem? fun i => ?_
          by_cases hi : i < 6
          · rw [List.getElem?_take_of_lt hi, List.getElem?_take_of_lt hi]
            refine Decidable.byContradiction fun hne => ?_
            obtain ⟨p, hp, hp1, hp2⟩ := hdiff i fun h => hne h.symm
            rcases List.mem_cons.1 hp with rfl | hp
            · simp only at hp1; omega
            · have := hge p hp; omega
          · rw [List.getElem?_eq_none (by rw [List.length_take]; omega), List.getElem?_eq_none (by rw [List.length_take]; omega)]
        have hpl : packetLen bs' = packetLen bs := by
          rw [← packetLen_take bs 6 (by omega), ← packetLen_take bs' 6 (by omega), h6]
        obtain ⟨h', r1', e1', hd1', hn'⟩ := next_complete hd' o (by omega) (by omega)
        rw [hpl] at hd1' hn'
        have hh : h' = h := by
          have := C01_prefix bs bs' (by omega) h6.symm
          rw [e1, e1'] at this
          exact (Except.ok.inj this).symm
        subst hh
        obtain ⟨ps', e', c1, c2, c3⟩ := ih (bs.drop (packetLen bs)) (bs'.drop (packetLen bs)) r1 r1' (o + packetLen bs) qs e (by simp; omega) hd1 hd1' hcol
          (by simp; omega) (by
            intro i hne
            rw [List.getElem?_drop, List.getElem?_drop] at hne
            obtain ⟨p, hp, hp1, hp2⟩ := hdiff _ hne
            rcases List.mem_cons.1 hp with rfl | hp
            · simp only [List.length_take] at hp2; omega
            · exact ⟨p, hp, by omega, by omega⟩)
        refine ⟨⟨h', bs'.take (packetLen bs), o⟩ :: ps', e', .step hn' c1, c2, ⟨rfl, rfl, by simp only [List.length_take]; omega, ?_, Nat.le_refl _, ?_⟩, ?_⟩
        · simp only [List.take_take, Nat.min_eq_left (by omega : 6 ≤ packetLen bs)]
          exact h6
        · intro j hne
          simp only at hne ⊢
          rw [show o - o + j = j by omega]
          by_cases hj : j < packetLen bs
          · rwa [List.getElem?_take_of_lt hj, List.getElem?_take_of_lt hj] at hne
          · exact absurd (by rw [List.getElem?_eq_none (by rw [List.length_take]; omega), List.getElem?_eq_none (by rw [List.length_take]; omega)]) hne
        · refine c3.imp fun p q ⟨a1, a2, a3, a4, a5, a6⟩ => ⟨a1, a2, a3, a4, by omega, fun j hj => ?_⟩
          have := a6 j hj
          rw [List.getElem?_drop, List.getElem?_drop] at this
          rwa [show p.offset - o + j = packetLen bs + (p.offset - (o + packetLen bs) + j) by omega]
      · obtain ⟨h1, rfl⟩ := hc.unique (.done (next_none hd o (by omega) (by omega)))
        obtain rfl := List.map_eq_nil_iff.1 h1
        obtain rfl := same_of_nil rfl
        exact ⟨[], _, .done (next_none hd' o (by omega) (by omega)), rfl, trivial⟩

/-- C110: damage behind the primary headers stays in the packets it hits. `decode_packets` yields as many packets as without it, with the same headers, offsets and lengths, ends in the
same way, and a packet's data only differ where the file does. -/
theorem C110_decode (bs bs' : List U8) (r r' : Reader) (hd : r.Delivers bs) (hd' : r'.Delivers bs') (ps : List Packet) (e : Option PacketDecoder)
    (h : Collects PacketDecoder.next (PacketDecoder.new r) (ps.map .ok) e) (hx : DamagedData bs bs' ps) :
    ∃ ps' e', Collects PacketDecoder.next (PacketDecoder.new r') (ps'.map .ok) e' ∧ e'.isSome = e.isSome ∧ Pairs (SameButData bs bs') ps ps' := by
  obtain ⟨ps', e', h1, h2, h3⟩ := data_errors _ bs bs' r r' 0 ps e (Nat.le_refl _) hd hd' h hx.1 (by simpa using hx.2)
  exact ⟨ps', e', h1, h2, h3.imp fun p q ⟨a1, a2, a3, a4, _, a6⟩ => ⟨a1, a2, a3, a4, by simpa using a6⟩⟩

theorem Pairs.headers {bs bs' : List U8} : ∀ {ps qs : List Packet}, Pairs (SameButData bs bs') ps qs → qs.map (·.header) = ps.map (·.header) := by
  intro ps
  induction ps with
  | nil => intro qs hp; cases qs <;> first | rfl | exact hp.elim
  | cons p ps ih =>
    intro qs hp
    cases qs with
    | nil => exact hp.elim
    | cons q qs => simp only [List.map_cons, hp.1.header, ih hp.2]

theorem Pairs.filter {bs bs' : List U8} (P : PrimaryHeader → Bool) : ∀ {ps qs : List Packet}, Pairs (SameButData bs bs') ps qs →
    Pairs (SameButData bs bs') (ps.filter fun p => P p.header) (qs.filter fun p => P p.header) := by
  intro ps
  induction ps with
  | nil => intro qs hp; cases qs <;> first | trivial | exact hp.elim
  | cons p ps ih =>
    intro qs hp
    cases qs with
    | nil => exact hp.elim
    | cons q qs =>
      rw [List.filter_cons, List.filter_cons, hp.1.header]
      by_cases h : P p.header = true
      · rw [if_pos h, if_pos h]; exact ⟨hp.1, ih hp.2⟩
      · rw [if_neg h, if_neg h]; exact ih hp.2

/-- C110 for `filter` by APID: the same packets are selected, in the same order, each with the damage it has in the input. -/
theorem C110_filter (b : Build) (τ : Epoch → Int) (hτ : τ Filter.minEpoch < τ Filter.maxEpoch) (bs bs' : List U8) (r r' : Reader) (hd : r.Delivers bs) (hd' : r'.Delivers bs') (ps : List Packet)
    (h : Decodes r ps) (hx : DamagedData bs bs' ps) (incl excl : List U16) (hne : incl ≠ [] ∨ excl ≠ []) (res res' : Filter.FResult)
    (hr : Filter.Runs b τ r incl excl none none res) (hr' : Filter.Runs b τ r' incl excl none none res') :
    ∃ ks ks', ks = (ps.filter fun p => decide (ApidPasses incl excl p.header.apid)) ∧ Pairs (SameButData bs bs') ks ks' ∧
      res = .ok (ks.map Packet.data) ∧ res' = .ok (ks'.map Packet.data) := by
  obtain ⟨s, hs⟩ := h
  obtain ⟨ps', e', h1, h2, h3⟩ := C110_decode bs bs' r r' hd hd' ps _ hs hx
  cases e' with
  | none => cases h2
  | some t =>
    exact ⟨_, _, rfl, h3.filter fun h => decide (ApidPasses incl excl h.apid), (C53_untimed b τ hτ r ps ⟨s, hs⟩ incl excl hne res).1 hr,
      (C53_untimed b τ hτ r' ps' ⟨t, h1⟩ incl excl hne res').1 hr'⟩

/-- The counts `info` reports: in total, missing, and for each APID. -/
def Info.Info.numbers (i : Info.Info) : Nat × Nat × List (U16 × Nat × Nat) := (i.summary.total, i.summary.missing, i.apids.map fun x => (x.1, x.2.total, x.2.missing))

theorem reports_numbers {τ : Epoch → Int} {cds : Bool} {ps ps' : List Packet} {i i' : Info.Info} (h : Reports τ cds ps i) (h' : Reports τ cds ps' i')
    (hh : ps'.map (·.header) = ps.map (·.header)) : i'.numbers = i.numbers := by
  have key : ∀ (l : List Packet) (a : U16), (∃ p ∈ l, p.header.apid = a) ↔ ∃ x ∈ l.map (·.header), x.apid = a := by
    intro l a
    constructor
    · rintro ⟨p, hp, e⟩; exact ⟨_, List.mem_map_of_mem hp, e⟩
    · rintro ⟨x, hx, e⟩
      obtain ⟨p, hp, rfl⟩ := List.mem_map.1 hx
      exact ⟨p, hp, e⟩
  have cnt : ∀ (l : List Packet) (a : U16), (ofApid l a).length = ((l.map (·.header)).filter fun x => x.apid == a).length := by
    intro l a
    rw [List.filter_map, List.length_map]
    unfold ofApid
    congr 1
  have seq : ∀ (l : List Packet) (a : U16), seqIds (ofApid l a) = ((l.map (·.header)).filter fun x => x.apid == a).map fun x => x.sequenceId.toNat := by
    intro l a
    rw [List.filter_map, List.map_map]
    unfold ofApid seqIds
    rfl
  have rows : (i'.apids.map fun x => (x.1, x.2.total, x.2.missing)) = i.apids.map fun x => (x.1, x.2.total, x.2.missing) := by
    refine rows_unique ?_ ?_ ?_
    · rw [List.pairwise_map]; exact h'.ascending
    · rw [List.pairwise_map]; exact h.ascending
    · rintro ⟨a, t, m⟩
      rw [List.mem_map, List.mem_map]
      constructor
      · rintro ⟨⟨a', s⟩, hm, e⟩
        simp only [Prod.mk.injEq] at e
        obtain ⟨rfl, rfl, rfl⟩ := e
        obtain ⟨s', hs'⟩ := (h.present a').2 (by rw [key, ← hh, ← key]; exact (h'.present a').1 ⟨s, hm⟩)
        refine ⟨_, hs', ?_⟩
        obtain ⟨x1, x2, _⟩ := h'.each _ _ hm
        obtain ⟨y1, y2, _⟩ := h.each _ _ hs'
        simp only [x1, x2, y1, y2, cnt, seq, hh]
      · rintro ⟨⟨a', s⟩, hm, e⟩
        simp only [Prod.mk.injEq] at e
        obtain ⟨rfl, rfl, rfl⟩ := e
        obtain ⟨s', hs'⟩ := (h'.present a').2 (by rw [key, hh, ← key]; exact (h.present a').1 ⟨s, hm⟩)
        refine ⟨_, hs', ?_⟩
        obtain ⟨x1, x2, _⟩ := h.each _ _ hm
        obtain ⟨y1, y2, _⟩ := h'.each _ _ hs'
        simp only [x1, x2, y1, y2, cnt, seq, hh]
  have e1 : i'.summary.total = i.summary.total := by
    rw [h.total, h'.total, ← List.length_map (f := (·.header)), hh, List.length_map]
  have e2 : i'.summary.missing = i.summary.missing := by
    have := congrArg (fun l => (l.map fun x : U16 × Nat × Nat => x.2.2).sum) rows
    simp only [List.map_map] at this
    rw [h.missing, h'.missing]
    exact this
  unfold Info.Info.numbers
  rw [e1, e2, rows]

/-- C110 for `info`: no count changes (times can). -/
theorem C110_info (b : Build) (τ : Epoch → Int) (cds : Bool) (bs bs' : List U8) (r r' : Reader) (hd : r.Delivers bs) (hd' : r'.Delivers bs') (ps : List Packet) (h : Decodes r ps)
    (hx : DamagedData bs bs' ps) (res res' : Option Info.Info) (hr : Info.Runs b τ cds r res) (hr' : Info.Runs b τ cds r' res') :
    ∃ i i', res = some i ∧ res' = some i' ∧ i'.numbers = i.numbers := by
  obtain ⟨s, hs⟩ := h
  obtain ⟨ps', e', h1, h2, h3⟩ := C110_decode bs bs' r r' hd hd' ps _ hs hx
  cases e' with
  | none => cases h2
  | some t =>
    obtain ⟨i, k1, k2⟩ := C56_info b τ cds bs r ps hd ⟨s, hs⟩
    obtain ⟨i', k1', k2'⟩ := C56_info b τ cds bs' r' ps' hd' ⟨t, h1⟩
    exact ⟨i, i', (k2 res).1 hr, (k2' res').1 hr', reports_numbers k1 k1' h3.headers⟩

/-! ## Groups -/

/-- The group `g'` is `g` with damaged data. -/
structure SameGroupButData (bs bs' : List U8) (g g' : PacketGroup) : Prop where
  apid : g'.apid = g.apid
  packets : Pairs (SameButData bs bs') g.packets g'.packets

/-- Damage that spares the first eight bytes behind the primary headers too (the time of a packet, if it has one). -/
def DamagedBehindTimes (bs bs' : List U8) (ps : List Packet) : Prop :=
  bs'.length = bs.length ∧ ∀ i, bs[i]? ≠ bs'[i]? → ∃ p ∈ ps, p.offset + 14 ≤ i ∧ i < p.offset + p.data.length

theorem cut_headers (ls : List (List Packet)) : ∀ ls' : List (List Packet),
    ls'.map (List.map fun p => p.header) = ls.map (List.map fun p => p.header) → CutWhereApidChanges ls → CutWhereApidChanges ls' := by
  induction ls with
  | nil => intro ls' h _; simp at h; subst h; trivial
  | cons l ls ih =>
    intro ls' h hc
    cases ls' with
    | nil => simp at h
    | cons l' ls' =>
      rw [List.map_cons, List.map_cons, List.cons.injEq] at h
      obtain ⟨h1, h2⟩ := h
      obtain ⟨⟨p, rest, rfl, c1, c2, c3⟩, hc'⟩ := hc
      cases l' with
      | nil => simp at h1
      | cons p' rest' =>
        rw [List.map_cons, List.map_cons, List.cons.injEq] at h1
        obtain ⟨hh, hr⟩ := h1
        have hs : p'.isStandalone = p.isStandalone := by unfold Packet.isStandalone; rw [hh]
        refine ⟨⟨p', rest', rfl, ?_, ?_, ?_⟩, ih ls' h2 hc'⟩
        · intro h; rw [hs] at h; rw [c1 h] at hr; simpa using hr
        · intro q hq
          have : q.header ∈ rest'.map (fun p => p.header) := List.mem_map_of_mem hq
          rw [hr] at this
          obtain ⟨q', hq', e⟩ := List.mem_map.1 this
          rw [← e, c2 q' hq', hh]
        · intro h k hk
          rw [hs] at h
          cases ls' with
          | nil => simp at hk
          | cons k' ls'' =>
            simp only [List.head?_cons, Option.mem_def, Option.some.injEq] at hk
            subst hk
            cases ls with
            | nil => simp at h2
            | cons g ls =>
              rw [List.map_cons, List.map_cons, List.cons.injEq] at h2
              have := c3 h g (by simp)
              rw [hh]
              cases k' with
              | nil => simp
              | cons a k' =>
                cases g with
                | nil => simp at h2
                | cons a' g =>
                  rw [List.map_cons, List.map_cons, List.cons.injEq] at h2
                  simpa [h2.1.1] using this

theorem Pairs.append {α : Type} {R : α → α → Prop} : ∀ {a : List α} {b qs : List α}, Pairs R (a ++ b) qs → ∃ c d, qs = c ++ d ∧ Pairs R a c ∧ Pairs R b d := by
  intro a
  induction a with
  | nil => intro b qs h; exact ⟨[], qs, rfl, trivial, h⟩
  | cons x a ih =>
    intro b qs h
    cases qs with
    | nil => exact h.elim
    | cons y qs =>
      obtain ⟨c, d, rfl, h1, h2⟩ := ih h.2
      exact ⟨y :: c, d, rfl, ⟨h.1, h1⟩, h2⟩

theorem Pairs.flatten {α : Type} {R : α → α → Prop} : ∀ {ls : List (List α)} {qs : List α}, Pairs R ls.flatten qs → ∃ ls', ls'.flatten = qs ∧ Pairs (Pairs R) ls ls' := by
  intro ls
  induction ls with
  | nil =>
    intro qs h
    cases qs with
    | nil => exact ⟨[], rfl, trivial⟩
    | cons => exact h.elim
  | cons l ls ih =>
    intro qs h
    rw [List.flatten_cons] at h
    obtain ⟨c, d, rfl, h1, h2⟩ := Pairs.append h
    obtain ⟨ls', rfl, h3⟩ := ih h2
    exact ⟨c :: ls', rfl, h1, h3⟩

theorem Pairs.map_headers {bs bs' : List U8} : ∀ {ls ls' : List (List Packet)}, Pairs (Pairs (SameButData bs bs')) ls ls' →
    ls'.map (List.map fun p => p.header) = ls.map (List.map fun p => p.header) := by
  intro ls
  induction ls with
  | nil => intro ls' h; cases ls' <;> first | rfl | exact h.elim
  | cons l ls ih =>
    intro ls' h
    cases ls' with
    | nil => exact h.elim
    | cons l' ls' =>
      rw [List.map_cons, List.map_cons, ih h.2]
      congr 1
      exact h.1.headers

theorem groups_apid {ps : List Packet} {gs : List PacketGroup} (hg : GroupsOf ps gs) : ∀ g ∈ gs, g.packets ≠ [] ∧ ∀ p ∈ g.packets, p.header.apid = g.apid := by
  obtain ⟨s, hs⟩ := hg
  obtain ⟨gs', s', h1, _, h3⟩ := C11_partition ps
  have : gs = gs' := (List.map_inj_right (fun x y h => by cases h; rfl)).1 (hs.unique h1).1
  rw [this]; exact h3

theorem pairs_groups {bs bs' : List U8} : ∀ (gs gs' : List PacketGroup), Pairs (Pairs (SameButData bs bs')) (gs.map PacketGroup.packets) (gs'.map PacketGroup.packets) →
    (∀ g ∈ gs, g.packets ≠ [] ∧ ∀ p ∈ g.packets, p.header.apid = g.apid) → (∀ g ∈ gs', g.packets ≠ [] ∧ ∀ p ∈ g.packets, p.header.apid = g.apid) →
    Pairs (SameGroupButData bs bs') gs gs' := by
  intro gs
  induction gs with
  | nil => intro gs' h _ _; cases gs' <;> first | trivial | exact h.elim
  | cons g gs ih =>
    intro gs' h h1 h2
    cases gs' with
    | nil => exact h.elim
    | cons g' gs' =>
      refine ⟨⟨?_, h.1⟩, ih gs' h.2 (fun x hx => h1 x (by simp [hx])) (fun x hx => h2 x (by simp [hx]))⟩
      obtain ⟨a1, a2⟩ := h1 g (by simp)
      obtain ⟨b1, b2⟩ := h2 g' (by simp)
      have hp := h.1
      cases e : g.packets with
      | nil => exact absurd e a1
      | cons p rest =>
        cases e' : g'.packets with
        | nil => exact absurd e' b1
        | cons p' rest' =>
          rw [e, e'] at hp
          rw [← a2 p (by simp [e]), ← b2 p' (by simp [e']), hp.1.header]

/-- C110, groups: `collect_groups` gives as many groups, of the same APIDs, each with the same packets but for the damage. -/
theorem C110_groups (bs bs' : List U8) (r r' : Reader) (hd : r.Delivers bs) (hd' : r'.Delivers bs') (ps : List Packet) (h : Decodes r ps) (hx : DamagedData bs bs' ps)
    (gs : List PacketGroup) (hg : GroupsOf ps gs) :
    ∃ ps' gs', Decodes r' ps' ∧ GroupsOf ps' gs' ∧ Pairs (SameGroupButData bs bs') gs gs' := by
  obtain ⟨s, hs⟩ := h
  obtain ⟨ps', e', h1, h2, h3⟩ := C110_decode bs bs' r r' hd hd' ps _ hs hx
  cases e' with
  | none => cases h2
  | some t =>
    obtain ⟨u, hu⟩ := id hg
    obtain ⟨c1, c2⟩ := (C12_exact ps (gs.map PacketGroup.packets)).1 ⟨gs, u, hu, rfl⟩
    rw [← c1] at h3
    obtain ⟨ls', l1, l2⟩ := Pairs.flatten h3
    obtain ⟨gs', u', k1, k2⟩ := (C12_exact ps' ls').2 ⟨l1, cut_headers _ _ l2.map_headers c2⟩
    rw [← k2] at l2
    exact ⟨ps', gs', ⟨t, h1⟩, ⟨u', k1⟩, pairs_groups gs gs' l2 (groups_apid hg) (groups_apid ⟨u', k1⟩)⟩

/-- What the packets of `p` and `p'` have in common when the damage spares the time. -/
theorem times_spared {bs bs' : List U8} {ps : List Packet} (hx : DamagedBehindTimes bs bs' ps) (hdis : ∀ p ∈ ps, ∀ q ∈ ps, p.offset ≤ q.offset → p = q ∨ p.offset + p.data.length ≤ q.offset)
    {p p' : Packet} (hp : p ∈ ps) (h : SameButData bs bs' p p') : p'.data.take 14 = p.data.take 14 := by
  apply List.ext_getElem?
  intro j
  rw [List.getElem?_take, List.getElem?_take]
  by_cases hj : j < 14
  · rw [if_pos hj, if_pos hj]
    apply Classical.byContradiction
    intro hne
    obtain ⟨q, hq, q1, q2⟩ := hx.2 _ (h.bytes j (fun e => hne e.symm))
    have hjl : j < p.data.length := by
      rcases Nat.lt_or_ge j p.data.length with t | t
      · exact t
      · have hl := h.length
        exact absurd (by rw [List.getElem?_eq_none (by omega), List.getElem?_eq_none (by omega)]) hne
    rcases Nat.le_total p.offset q.offset with t | t
    · rcases hdis p hp q hq t with e | e
      · subst e; omega
      · omega
    · rcases hdis q hq p hp t with e | e
      · subst e; omega
      · omega
  · rw [if_neg hj, if_neg hj]

theorem offsets_disjoint {ps : List Packet} (ho : OffsetsOk ps) (hw : ∀ p ∈ ps, p.WellFormed) :
    ∀ p ∈ ps, ∀ q ∈ ps, p.offset ≤ q.offset → p = q ∨ p.offset + p.data.length ≤ q.offset := by
  have key : ∀ (i j : Nat) (p q : Packet), ps[i]? = some p → ps[j]? = some q → i < j → p.offset + p.data.length ≤ q.offset := by
    intro i j p q hi hj hij
    obtain ⟨hi', ei⟩ := List.getElem?_eq_some_iff.1 hi
    obtain ⟨hj', ej⟩ := List.getElem?_eq_some_iff.1 hj
    have s1 : ps = ps.take i ++ p :: ps.drop (i + 1) := by rw [← ei, List.getElem_cons_drop, List.take_append_drop]
    have s2 : ps = ps.take j ++ q :: ps.drop (j + 1) := by rw [← ej, List.getElem_cons_drop, List.take_append_drop]
    rw [ho _ _ _ s1, ho _ _ _ s2]
    have : ps.take (i + 1) <+: ps.take j := List.take_prefix_take_left (by omega)
    obtain ⟨t, ht⟩ := this
    rw [← ht, List.take_add_one, hi]
    simp [wire]
  intro p hp q hq hpq
  obtain ⟨i, hi⟩ := List.mem_iff_getElem?.1 hp
  obtain ⟨j, hj⟩ := List.mem_iff_getElem?.1 hq
  rcases Nat.lt_trichotomy i j with t | t | t
  · exact .inr (key i j p q hi hj t)
  · subst t
    rw [hi] at hj
    exact .inl (Option.some.inj hj)
  · have := key j i q p hj hi t
    have hl := (hw q hq).1
    unfold packetLen at hl
    omega

theorem cdsTime_spared {p p' : Packet} (h : p'.data.take 14 = p.data.take 14) (hl : p'.data.length = p.data.length) : cdsTime p' = cdsTime p := by
  unfold cdsTime
  rw [hl]
  have e : (p'.data.drop 6).take 8 = (p.data.drop 6).take 8 := by
    have := congrArg (List.drop 6) h
    rwa [List.drop_take, List.drop_take] at this
  have f : ∀ s w, s + w ≤ 8 * 8 → field (p'.data.drop 6) s w = field (p.data.drop 6) s w := by
    intro s w hsw
    rw [← field_take (p'.data.drop 6) 8 s w hsw, ← field_take (p.data.drop 6) 8 s w hsw, e]
  rw [f 0 16 (by omega), f 16 32 (by omega), f 48 16 (by omega)]

theorem Pairs.mem_left {α : Type} {R : α → α → Prop} : ∀ {l l' : List α}, Pairs R l l' → ∀ y ∈ l', ∃ x ∈ l, R x y := by
  intro l
  induction l with
  | nil => intro l' h y hy; cases l' with
    | nil => cases hy
    | cons => exact h.elim
  | cons a l ih =>
    intro l' h y hy
    cases l' with
    | nil => exact h.elim
    | cons b l' =>
      rcases List.mem_cons.1 hy with rfl | hy
      · exact ⟨a, by simp, h.1⟩
      · obtain ⟨x, hx, e⟩ := ih h.2 y hy
        exact ⟨x, by simp [hx], e⟩

theorem Pairs.filter_same {α : Type} {R : α → α → Prop} (P : α → Bool) : ∀ {l l' : List α}, Pairs R l l' → (∀ x ∈ l, ∀ y ∈ l', R x y → P y = P x) → Pairs R (l.filter P) (l'.filter P) := by
  intro l
  induction l with
  | nil => intro l' h _; cases l' <;> first | trivial | exact h.elim
  | cons a l ih =>
    intro l' h hP
    cases l' with
    | nil => exact h.elim
    | cons b l' =>
      have e := hP a (by simp) b (by simp) h.1
      have t := ih h.2 (fun x hx y hy => hP x (by simp [hx]) y (by simp [hy]))
      rw [List.filter_cons, List.filter_cons, e]
      split
      · exact ⟨h.1, t⟩
      · exact t

/-- C110 with time bounds: if the damage spares the times as well, `ccsds filter` with `--before` or `--after` selects the same groups, each with its damage. (Without `--before` no time
may be 2100-01-01 or later: C53.) -/
theorem C110_timed (b : Build) (τ : Epoch → Int) (bs bs' : List U8) (r r' : Reader) (hd : r.Delivers bs) (hd' : r'.Delivers bs') (ps : List Packet) (h : Decodes r ps)
    (hx : DamagedBehindTimes bs bs' ps) (gs : List PacketGroup) (hg : GroupsOf ps gs) (incl excl : List U16) (before after : Option Epoch) (hb : before.isSome ∨ after.isSome)
    (hm : before = none → ∀ g ∈ gs, ∀ first ∈ g.packets.head?, ∀ t ∈ cdsTime first, τ t < τ ⟨.utc, (daysTo1958 + 51865) * 86400 * 1000000000⟩)
    (res res' : Filter.FResult) (hr : Filter.Runs b τ r incl excl before after res) (hr' : Filter.Runs b τ r' incl excl before after res') :
    ∃ ks ks', ks = gs.filter (groupPasses τ incl excl before after) ∧ Pairs (SameGroupButData bs bs') ks ks' ∧
      res = .ok (ks.map groupBytes) ∧ res' = .ok (ks'.map groupBytes) := by
  have hx' : DamagedData bs bs' ps := ⟨hx.1, fun i hi => by
    obtain ⟨p, hp, h1, h2⟩ := hx.2 i hi
    exact ⟨p, hp, by omega, h2⟩⟩
  obtain ⟨ps', gs', d1, d2, d3⟩ := C110_groups bs bs' r r' hd hd' ps h hx' gs hg
  have hw := decodes_wellFormed hd h
  have ho : OffsetsOk ps := by
    obtain ⟨s, hs⟩ := h
    obtain ⟨qs, rest, e, c1, _, _, c4, _⟩ := C04_cut bs r hd
    have : ps = qs := (List.map_inj_right (fun x y h => by cases h; rfl)).1 (hs.unique c1).1
    rw [this]; exact c4
  have hps := (groupsOf_spec hg).1
  have hfirst : ∀ g ∈ gs, ∀ g' ∈ gs', SameGroupButData bs bs' g g' → ∀ p' ∈ g'.packets.head?, ∃ p ∈ g.packets.head?, p'.header = p.header ∧ cdsTime p' = cdsTime p := by
    intro g hgm g' _ hs p' hp'
    have hpk := hs.packets
    cases e' : g'.packets with
    | nil => rw [e'] at hp'; cases hp'
    | cons q' rest' =>
      rw [e'] at hp' hpk
      have : q' = p' := by simpa using hp'
      subst this
      cases e : g.packets with
      | nil => rw [e] at hpk; exact hpk.elim
      | cons p rest =>
        rw [e] at hpk
        refine ⟨p, by simp, hpk.1.header, cdsTime_spared (times_spared hx (offsets_disjoint ho hw) ?_ hpk.1) hpk.1.length⟩
        rw [← hps]
        exact List.mem_flatMap.2 ⟨g, hgm, by simp [e]⟩
  have hpass : ∀ g ∈ gs, ∀ g' ∈ gs', SameGroupButData bs bs' g g' → groupPasses τ incl excl before after g' = groupPasses τ incl excl before after g := by
    intro g hgm g' hgm' hs
    unfold groupPasses
    cases e' : g'.packets with
    | nil =>
      cases e : g.packets with
      | nil => rfl
      | cons p rest => have := hs.packets; rw [e, e'] at this; exact this.elim
    | cons p' rest' =>
      obtain ⟨p, hp, h1, h2⟩ := hfirst g hgm g' hgm' hs p' (by simp [e'])
      cases e : g.packets with
      | nil => rw [e] at hp; cases hp
      | cons q rest =>
        rw [e] at hp
        have : q = p := by simpa using hp
        subst this
        simp only [h1, h2]
  refine ⟨_, gs'.filter (groupPasses τ incl excl before after), rfl, d3.filter_same _ hpass, (C53_partial b τ bs r ps gs incl excl before after hd h hg hb hm res).1 hr,
    (C53_partial b τ bs' r' ps' gs' incl excl before after hd' d1 d2 hb ?_ res').1 hr'⟩
  intro hbn g' hgm' p' hp' t ht
  obtain ⟨g, hgm, hs⟩ := d3.mem_left g' hgm'
  obtain ⟨p, hp, _, h2⟩ := hfirst g hgm g' hgm' hs p' hp'
  rw [h2] at ht
  exact hm hbn g hgm p hp t ht

namespace DataErrorsEx

/-- The last byte of the first packet and the first byte behind the header of the second are damaged. -/
def damaged : List U8 := FilterEx.early.take 13 ++ [0xff#8] ++ FilterEx.late.take 6 ++ [0xfe#8] ++ FilterEx.late.drop 7

theorem damagedData : DamagedData FilterEx.stream damaged [FilterEx.earlyPkt 0, FilterEx.latePkt 14] := by
  refine ⟨rfl, fun i hne => ?_⟩
  rcases Nat.lt_or_ge i 28 with h | h
  · revert hne
    revert i
    decide +kernel
  · exact absurd (by rw [List.getElem?_eq_none (by exact h), List.getElem?_eq_none (by exact h)]) hne

example (r' : Reader) (hd' : r'.Delivers damaged) : ∃ ps', Decodes r' ps' ∧ ps'.length = 2 := by
  obtain ⟨s, hs⟩ := FilterEx.decodes
  obtain ⟨ps', e', h1, h2, h3⟩ := C110_decode _ _ _ _ FilterEx.delivers hd' _ _ hs damagedData
  cases e' with
  | none => cases h2
  | some t => exact ⟨ps', ⟨t, h1⟩, by simpa using congrArg List.length h3.headers⟩

/-- The groups of the damaged file: still one packet each, of the APIDs 1 and 2. -/
example (r' : Reader) (hd' : r'.Delivers damaged) : ∃ ps' gs', Decodes r' ps' ∧ GroupsOf ps' gs' ∧ gs'.map (·.apid) = [1#16, 2#16] := by
  obtain ⟨ps', gs', h1, h2, h3⟩ := C110_groups _ _ _ r' FilterEx.delivers hd' _ FilterEx.decodes damagedData _ FilterEx.groups
  refine ⟨ps', gs', h1, h2, ?_⟩
  match gs', h3 with
  | [g1, g2], h3 => simp [h3.1.apid, h3.2.1.apid]

/-! A packet of 16 bytes, whose last byte is damaged: it is selected by its time all the same. -/

def longer : List U8 := [0x08#8, 1#8, 0xc0#8, 0#8, 0#8, 9#8] ++ [7#8, 1#8, 0#8, 0#8, 0#8, 0#8, 0#8, 0#8] ++ [1#8, 2#8]
def longerPkt : Packet := ⟨⟨0#8, 0#8, true, 1#16, 3#8, 0#16, 9#16⟩, longer, 0⟩
def spoilt : List U8 := longer.take 15 ++ [99#8]

theorem longer_delivers (l : List U8) (hl : l ≠ []) : (Reader.ofBytes l).Delivers l := by
  refine ⟨?_, by simp [evBytes, Ev.bytes, Reader.ofBytes], rfl⟩
  intro e he
  simp only [Reader.ofBytes, List.mem_cons, List.not_mem_nil, or_false] at he
  subst he
  exact .inl ⟨l, hl, rfl⟩

theorem longer_decodes : Decodes (Reader.ofBytes longer) [longerPkt] := ⟨_, .step rfl (.done rfl)⟩
theorem longer_groups : GroupsOf [longerPkt] [⟨1#16, [longerPkt]⟩] := ⟨_, .step rfl (.done rfl)⟩
theorem behindTimes : DamagedBehindTimes longer spoilt [longerPkt] := by
  refine ⟨rfl, fun i hne => ?_⟩
  rcases Nat.lt_or_ge i 16 with h | h
  · revert hne
    revert i
    decide +kernel
  · exact absurd (by rw [List.getElem?_eq_none (by exact h), List.getElem?_eq_none (by exact h)]) hne

example (b : Build) (res res' : Filter.FResult) (h : Filter.Runs b FilterEx.tau (Reader.ofBytes longer) [] [] (some ⟨.utc, 36525 * 86400 * 1000000000⟩) none res)
    (h' : Filter.Runs b FilterEx.tau (Reader.ofBytes spoilt) [] [] (some ⟨.utc, 36525 * 86400 * 1000000000⟩) none res') :
    res = .ok [longer] ∧ ∃ d, res' = .ok [d] ∧ d.length = 16 ∧ d.take 6 = longer.take 6 := by
  obtain ⟨ks, ks', e, hp, r1, r2⟩ := C110_timed b FilterEx.tau longer spoilt _ _ (longer_delivers _ (by decide)) (longer_delivers _ (by decide)) _ longer_decodes behindTimes _ longer_groups
    [] [] (some ⟨.utc, 36525 * 86400 * 1000000000⟩) none (.inl rfl) (by simp) res res' h h'
  have hk : ks = [⟨1#16, [longerPkt]⟩] := by rw [e]; decide +kernel
  subst hk
  refine ⟨r1.trans (by decide +kernel), ?_⟩
  match ks', hp with
  | [g'], hp =>
    have hq := hp.1.packets
    match hg : g'.packets, hq with
    | [p'], hq => exact ⟨p'.data, by rw [r2]; simp [groupBytes, hg], hq.1.length, hq.1.primary⟩

end DataErrorsEx

end Ccsds
