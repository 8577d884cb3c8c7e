import Verif.Proofs.Sync
import Verif.Props.DataErrors
/-!
# C136: damage anywhere but in the length fields
-/
namespace Ccsds
open Spec

/-- The two byte strings only differ inside the packets `ps` of the first, and not in the length fields of their primary headers. -/
def SparesLengths (bs bs' : List U8) (ps : List Packet) : Prop :=
  bs'.length = bs.length ∧
    ∀ i, bs[i]? ≠ bs'[i]? → ∃ p ∈ ps, p.offset ≤ i ∧ i < p.offset + p.data.length ∧ i ≠ p.offset + 4 ∧ i ≠ p.offset + 5

/-- No byte of the packet is damaged. -/
def Untouched (bs bs' : List U8) (p : Packet) : Prop := ∀ i, p.offset ≤ i → i < p.offset + p.data.length → bs[i]? = bs'[i]?

/-- `p'` is what became of the packet `p`: in the same place, of the same length, and a byte only differs where the streams differ. -/
structure SamePlace (bs bs' : List U8) (p p' : Packet) : Prop where
  offset : p'.offset = p.offset
  length : p'.data.length = p.data.length
  bytes : ∀ j, p.data[j]? ≠ p'.data[j]? → bs[p.offset + j]? ≠ bs'[p.offset + j]?
  same : Untouched bs bs' p → p' = p

/-- The packet length is in the bytes 4 and 5. -/
theorem packetLen_of_length_field (bs bs' : List U8) (h4 : bs'[4]? = bs[4]?) (h5 : bs'[5]? = bs[5]?) : packetLen bs' = packetLen bs := by
  have key : ∀ l : List U8, field l 32 16 = natOfBits (bits ((l.drop 4).take 2)) := by
    intro l
    unfold field
    rw [bits_take, bits_drop]
  have hl : (bs'.drop 4).take 2 = (bs.drop 4).take 2 := by
    refine List.ext_getElem? fun i => ?_
    by_cases hi : i < 2
    · rw [List.getElem?_take_of_lt hi, List.getElem?_take_of_lt hi, List.getElem?_drop, List.getElem?_drop]
      match i, hi with
      | 0, _ => exact h4
      | 1, _ => exact h5
    · rw [List.getElem?_eq_none (by rw [List.length_take]; omega), List.getElem?_eq_none (by rw [List.length_take]; omega)]
  unfold packetLen
  rw [key, key, hl]

theorem spared_lengths (n : Nat) : ∀ (bs bs' : List U8) (r r' : Reader) (o : Nat) (ps : List Packet) (e : Option PacketDecoder), bs.length ≤ n → r.Delivers bs → r'.Delivers bs' →
    Collects PacketDecoder.next ⟨r, o⟩ (ps.map .ok) e → bs'.length = bs.length → (∀ i, bs[i]? ≠ bs'[i]? → ∃ p ∈ ps, p.offset ≤ o + i ∧ o + i < p.offset + p.data.length ∧ o + i ≠ p.offset + 4 ∧ o + i ≠ p.offset + 5) →
    ∃ ps' e', Collects PacketDecoder.next ⟨r', o⟩ (ps'.map .ok) e' ∧ e'.isSome = e.isSome ∧
      Pairs (fun p p' => p'.offset = p.offset ∧ p'.data.length = p.data.length ∧ o ≤ p.offset ∧
        ∀ j, p.data[j]? ≠ p'.data[j]? → bs[p.offset - o + j]? ≠ bs'[p.offset - o + j]?) ps ps' := by
  induction n with
  | zero =>
    intro bs bs' r r' o ps e hl hd hd' hc hlen _
    obtain rfl := List.eq_nil_of_length_eq_zero (by omega : bs.length = 0)
    obtain rfl := List.eq_nil_of_length_eq_zero (by simpa using hlen : bs'.length = 0)
    obtain ⟨h1, rfl⟩ := hc.unique (.done (next_none hd o (by simp [packetLen]) (by simp)))
    obtain rfl := List.map_eq_nil_iff.1 h1
    exact ⟨[], _, .done (next_none hd' o (by simp [packetLen]) (by simp)), rfl, trivial⟩
  | succ n ih =>
    intro bs bs' r r' o ps e hl hd hd' hc hlen hdiff
    have h7 := packetLen_ge bs
    have same_of_nil : ps = [] → bs' = bs := by
      intro h
      refine List.ext_getElem? fun i => Decidable.byContradiction fun hne => ?_
      obtain ⟨p, hp, _⟩ := hdiff i fun h => hne h.symm
      rw [h] at hp; cases hp
    by_cases hp : 6 ≤ bs.length ∧ 65536 < packetLen bs
    · obtain ⟨h1, rfl⟩ := hc.unique (.panicked (next_panic hd o hp.1 hp.2))
      obtain rfl := List.map_eq_nil_iff.1 h1
      obtain rfl := same_of_nil rfl
      exact ⟨[], _, .panicked (next_panic hd' o hp.1 hp.2), rfl, trivial⟩
    · by_cases hcm : packetLen bs ≤ bs.length
      · obtain ⟨h, r1, e1, hd1, hn⟩ := next_complete hd o hcm (by omega)
        obtain ⟨qs, rest, x, hcol, hb, hw, ho, _, _⟩ := C04_aux n (bs.drop (packetLen bs)) r1 (o + packetLen bs) (by simp; omega) hd1
        obtain ⟨h1, rfl⟩ := hc.unique (.step hn hcol)
        have hps : ps = ⟨h, bs.take (packetLen bs), o⟩ :: qs := by
          cases ps with
          | nil => cases h1
          | cons p ps =>
            simp only [List.map_cons, List.cons.injEq, Except.ok.injEq] at h1
            obtain ⟨rfl, h1⟩ := h1
            exact congrArg _ (List.map_inj_right (fun _ _ h => Except.ok.inj h) |>.1 h1)
        subst hps
        have hge : ∀ q ∈ qs, o + packetLen bs ≤ q.offset := by
          intro q hq
          obtain ⟨s, t, rfl⟩ := List.append_of_mem hq
          have := ho s q t rfl
          omega
        have h45 : ∀ i, i = 4 ∨ i = 5 → bs'[i]? = bs[i]? := by
          intro i hi
          refine Decidable.byContradiction fun hne => ?_
          obtain ⟨p, hp, hp1, hp2, hp3⟩ := hdiff i fun h => hne h.symm
          rcases List.mem_cons.1 hp with rfl | hp
          · simp only at hp3; omega
          · have := hge p hp; omega
        have hpl : packetLen bs' = packetLen bs := packetLen_of_length_field _ _ (h45 4 (.inl rfl)) (h45 5 (.inr rfl))
        obtain ⟨h', r1', e1', hd1', hn'⟩ := next_complete hd' o (by omega) (by omega)
        rw [hpl] at hd1' hn'
        obtain ⟨ps', e', c1, c2, c3⟩ := ih (bs.drop (packetLen bs)) (bs'.drop (packetLen bs)) r1 r1' (o + packetLen bs) qs e (by simp; omega) hd1 hd1' hcol
          (by simp; omega) (by
            intro i hne
            rw [List.getElem?_drop, List.getElem?_drop] at hne
            obtain ⟨p, hp, hp1, hp2, hp3⟩ := hdiff _ hne
            rcases List.mem_cons.1 hp with rfl | hp
            · simp only [List.length_take] at hp2; omega
            · exact ⟨p, hp, by omega, by omega, by omega⟩)
        refine ⟨⟨h', bs'.take (packetLen bs), o⟩ :: ps', e', .step hn' c1, c2, ⟨rfl, by simp only [List.length_take]; omega, Nat.le_refl _, ?_⟩, ?_⟩
        · intro j hne
          simp only at hne ⊢
          rw [show o - o + j = j by omega]
          by_cases hj : j < packetLen bs
          · rwa [List.getElem?_take_of_lt hj, List.getElem?_take_of_lt hj] at hne
          · exact absurd (by rw [List.getElem?_eq_none (by rw [List.length_take]; omega), List.getElem?_eq_none (by rw [List.length_take]; omega)]) hne
        · refine c3.imp fun p q ⟨a1, a2, a5, a6⟩ => ⟨a1, a2, by omega, fun j hj => ?_⟩
          have := a6 j hj
          rw [List.getElem?_drop, List.getElem?_drop] at this
          rwa [show p.offset - o + j = packetLen bs + (p.offset - (o + packetLen bs) + j) by omega]
      · obtain ⟨h1, rfl⟩ := hc.unique (.done (next_none hd o (by omega) (by omega)))
        obtain rfl := List.map_eq_nil_iff.1 h1
        obtain rfl := same_of_nil rfl
        exact ⟨[], _, .done (next_none hd' o (by omega) (by omega)), rfl, trivial⟩

/-- C136: damage that spares the length fields stays in the packets it hits. `decode_packets` yields as many packets as without it, in the same places, ends in the same way, and
every packet that is not hit is the same, header and data. -/
theorem C136_decode (bs bs' : List U8) (r r' : Reader) (hd : r.Delivers bs) (hd' : r'.Delivers bs') (ps : List Packet) (e : Option PacketDecoder)
    (h : Collects PacketDecoder.next (PacketDecoder.new r) (ps.map .ok) e) (hx : SparesLengths bs bs' ps) :
    ∃ ps' e', Collects PacketDecoder.next (PacketDecoder.new r') (ps'.map .ok) e' ∧ e'.isSome = e.isSome ∧ Pairs (SamePlace bs bs') ps ps' := by
  obtain ⟨ps', e', h1, h2, h3⟩ := spared_lengths _ bs bs' r r' 0 ps e (Nat.le_refl _) hd hd' h hx.1 (by simpa using hx.2)
  obtain ⟨qs, k1, k2⟩ := delivers_packets hd h
  obtain ⟨qs', k1', k2'⟩ := delivers_packets hd' h1
  obtain rfl := map_ok_inj k1
  obtain rfl := map_ok_inj k1'
  refine ⟨ps', e', h1, h2, ?_⟩
  clear h h1 k1 k1' hx
  induction ps generalizing ps' with
  | nil => cases ps' <;> first | trivial | exact h3.elim
  | cons p ps ih =>
    cases ps' with
    | nil => exact h3.elim
    | cons p' ps' =>
      obtain ⟨⟨a1, a2, _, a4⟩, h3⟩ := h3
      refine ⟨⟨a1, a2, by simpa using a4, ?_⟩, ih _ h3 (fun q hq => k2 q (by simp [hq])) (fun q hq => k2' q (by simp [hq]))⟩
      intro hu
      have hdata : p'.data = p.data := by
        refine List.ext_getElem? fun j => ?_
        by_cases hj : j < p.data.length
        · refine Decidable.byContradiction fun hne => ?_
          have := a4 j fun h => hne h.symm
          rw [Nat.sub_zero] at this
          exact this (hu _ (by omega) (by omega))
        · rw [List.getElem?_eq_none (by omega), List.getElem?_eq_none (by omega)]
      have w := (k2 p (by simp)).2
      have w' := (k2' p' (by simp)).2
      rw [hdata, w] at w'
      obtain ⟨ph, pd, po⟩ := p
      obtain ⟨ph', pd', po'⟩ := p'
      simp only at a1 hdata w'
      rw [a1, hdata, Except.ok.inj w']

theorem Pairs.length_eq {α : Type} {R : α → α → Prop} : ∀ {ps qs : List α}, Pairs R ps qs → qs.length = ps.length := by
  intro ps
  induction ps with
  | nil => intro qs hp; cases qs <;> first | rfl | exact hp.elim
  | cons p ps ih =>
    intro qs hp
    cases qs with
    | nil => exact hp.elim
    | cons q qs => simp only [List.length_cons, ih hp.2]

/-- C136 for `info`: the total is the same. -/
theorem C136_info (b : Build) (τ : Epoch → Int) (cds : Bool) (bs bs' : List U8) (r r' : Reader) (hd : r.Delivers bs) (hd' : r'.Delivers bs') (ps : List Packet) (h : Decodes r ps)
    (hx : SparesLengths bs bs' ps) (res res' : Option Info.Info) (hr : Info.Runs b τ cds r res) (hr' : Info.Runs b τ cds r' res') :
    ∃ i i', res = some i ∧ res' = some i' ∧ i'.summary.total = i.summary.total := by
  obtain ⟨s, hs⟩ := h
  obtain ⟨ps', e', h1, h2, h3⟩ := C136_decode bs bs' r r' hd hd' ps _ hs hx
  cases e' with
  | none => cases h2
  | some t =>
    obtain ⟨i, k1, k2⟩ := C56_info b τ cds bs r ps hd ⟨s, hs⟩
    obtain ⟨i', k1', k2'⟩ := C56_info b τ cds bs' r' ps' hd' ⟨t, h1⟩
    exact ⟨i, i', (k2 res).1 hr, (k2' res').1 hr', by rw [k1.total, k1'.total, h3.length_eq]⟩

open Classical in
/-- C136 for `filter` by APID: the selected packets that are not hit all come out, in their order (a hit packet may come out too, or not, as its damaged APID says). -/
theorem C136_filter (b : Build) (τ : Epoch → Int) (hτ : τ Filter.minEpoch < τ Filter.maxEpoch) (bs bs' : List U8) (r r' : Reader) (hd : r.Delivers bs) (hd' : r'.Delivers bs')
    (ps : List Packet) (h : Decodes r ps) (hx : SparesLengths bs bs' ps) (incl excl : List U16) (hne : incl ≠ [] ∨ excl ≠ []) (res' : Filter.FResult)
    (hr' : Filter.Runs b τ r' incl excl none none res') :
    ∃ w, res' = .ok w ∧
      List.Sublist ((ps.filter fun p => decide (ApidPasses incl excl p.header.apid ∧ Untouched bs bs' p)).map Packet.data) w := by
  obtain ⟨s, hs⟩ := h
  obtain ⟨ps', e', h1, h2, h3⟩ := C136_decode bs bs' r r' hd hd' ps _ hs hx
  cases e' with
  | none => cases h2
  | some t =>
    refine ⟨_, (C53_untimed b τ hτ r' ps' ⟨t, h1⟩ incl excl hne res').1 hr', ?_⟩
    clear h1 hs hr' hx
    refine List.Sublist.map _ ?_
    induction ps generalizing ps' with
    | nil => exact List.nil_sublist _
    | cons p ps ih =>
      cases ps' with
      | nil => exact h3.elim
      | cons p' ps' =>
        obtain ⟨h4, h3⟩ := h3
        have := ih ps' h3
        rw [List.filter_cons]
        split
        · rename_i hp
          simp only [decide_eq_true_eq] at hp
          rw [h4.same hp.2, List.filter_cons, if_pos (by simpa using hp.1)]
          exact this.cons_cons _
        · rw [List.filter_cons]
          split
          · exact this.cons _
          · exact this

/-! The APID of the first packet and a byte of its data are damaged; the second is untouched. -/
namespace HeaderDamageEx
open DataErrorsEx

def damaged : List U8 := [0x0f#8, 0xff#8] ++ (FilterEx.early.drop 2).take 11 ++ [0xff#8] ++ FilterEx.late

theorem spares : SparesLengths FilterEx.stream damaged [FilterEx.earlyPkt 0, FilterEx.latePkt 14] := by
  refine ⟨rfl, fun i hne => ?_⟩
  rcases Nat.lt_or_ge i 28 with h | h
  · revert hne
    revert i
    decide +kernel
  · exact absurd (by rw [List.getElem?_eq_none (by exact h), List.getElem?_eq_none (by exact h)]) hne

theorem untouched : Untouched FilterEx.stream damaged (FilterEx.latePkt 14) := by
  intro i h1 h2
  have key : ∀ i, i < 28 → 14 ≤ i → FilterEx.stream[i]? = damaged[i]? := by decide +kernel
  exact key i h2 h1

/-- The second packet is decoded as before. -/
example (r' : Reader) (hd' : r'.Delivers damaged) : ∃ p, Decodes r' [p, FilterEx.latePkt 14] ∧ p.offset = 0 ∧ p.data.length = 14 := by
  obtain ⟨s, hs⟩ := FilterEx.decodes
  obtain ⟨ps', e', h1, h2, h3⟩ := C136_decode _ _ _ _ FilterEx.delivers hd' _ _ hs spares
  match ps', h1, h3 with
  | [p, q], h1, h3 =>
    cases e' with
    | none => cases h2
    | some t =>
      have hq := h3.2.1.same untouched
      subst hq
      exact ⟨p, ⟨t, h1⟩, h3.1.offset, h3.1.length⟩

example (b : Build) (r' : Reader) (hd' : r'.Delivers damaged) (res' : Filter.FResult) (hr' : Filter.Runs b FilterEx.tau r' [1#16] [] none none res') :=
  C136_filter b FilterEx.tau (by decide) _ _ _ r' FilterEx.delivers hd' _ FilterEx.decodes spares [1#16] [] (by simp) res' hr'
example (b : Build) (r' : Reader) (hd' : r'.Delivers damaged) (res res' : Option Info.Info) (hr : Info.Runs b FilterEx.tau true (Reader.ofBytes FilterEx.stream) res)
    (hr' : Info.Runs b FilterEx.tau true r' res') := C136_info b FilterEx.tau true _ _ _ r' FilterEx.delivers hd' _ FilterEx.decodes spares res res' hr hr'

/-! The length fields must be spared: one bit of the first one, and nothing of the stream is decoded any more. -/
def lengthened : List U8 := FilterEx.stream.take 4 ++ [0x01#8] ++ FilterEx.stream.drop 5

theorem one_byte : ∀ i, i ≠ 4 → FilterEx.stream[i]? = lengthened[i]? := by
  intro i hi
  have key : ∀ i, i < 28 → i ≠ 4 → FilterEx.stream[i]? = lengthened[i]? := by decide +kernel
  rcases Nat.lt_or_ge i 28 with h | h
  · exact key i h hi
  · rw [List.getElem?_eq_none (by exact h), List.getElem?_eq_none (by exact h)]

theorem nothing (r' : Reader) (hd' : r'.Delivers lengthened) : Decodes r' [] :=
  ⟨_, .done (next_none hd' 0 (by decide +kernel) (by decide +kernel))⟩

example : ¬ SparesLengths FilterEx.stream lengthened [FilterEx.earlyPkt 0, FilterEx.latePkt 14] := by
  intro h
  obtain ⟨ps', e', h1, _, h3⟩ := C136_decode _ _ _ (Reader.ofBytes lengthened) FilterEx.delivers (DataErrorsEx.longer_delivers _ (by decide)) _ _ FilterEx.decodes.choose_spec h
  obtain ⟨h4, _⟩ := h1.unique (nothing _ (DataErrorsEx.longer_delivers _ (by decide))).choose_spec
  obtain rfl := List.map_eq_nil_iff.1 h4
  exact h3.elim

end HeaderDamageEx

end Ccsds
