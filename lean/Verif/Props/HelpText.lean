import Verif.Props.Writes
import Verif.Props.NumberRanges
/-!
# C81: `--include` and `--exclude` mean what their help texts say
-/
namespace Ccsds
open Spec Ranges

/-- main.rs:139-147, 232-240, help of `--include`: a number, or `<start>-<end>` "where start and end are inclusive". -/
def IncludesPerHelp (s : List Char) (n : Nat) : Prop :=
  IsNumber s n ∨ ∃ a b x y, s = a ++ '-' :: b ∧ IsNumber a x ∧ IsNumber b y ∧ x ≤ n ∧ n ≤ y

/-- main.rs:149-154, 242-247, help of `--exclude`: a number, or `<start>-<end>` "where start is inclusive and end is exclusive". -/
def ExcludesPerHelp (s : List Char) (n : Nat) : Prop :=
  IsNumber s n ∨ ∃ a b x y, s = a ++ '-' :: b ∧ IsNumber a x ∧ IsNumber b y ∧ x ≤ n ∧ n < y

/-- "If used with --exclude, values are first included, then excluded"; no `--include` includes everything. -/
def KeptPerHelp (incl excl : List (List Char)) (n : Nat) : Prop :=
  (incl = [] ∨ ∃ s ∈ incl, IncludesPerHelp s n) ∧ ¬ ∃ s ∈ excl, ExcludesPerHelp s n

/-- `n` is the end of one of the excluded ranges, and in no other of the excluded items. -/
def OnlyEndOfExcluded (excl : List (List Char)) (n : Nat) : Prop :=
  (∃ s ∈ excl, ∃ a b x, s = a ++ '-' :: b ∧ IsNumber a x ∧ IsNumber b n ∧ x < n) ∧ ¬ ∃ s ∈ excl, ExcludesPerHelp s n

theorem isNumber_no_dash {s a b : List Char} {n : Nat} (h : IsNumber s n) (e : s = a ++ '-' :: b) : False := by
  have := h.2.1 '-' (by rw [e]; simp)
  revert this; decide

theorem denotes_mem {s : List Char} {vs : List Nat} (h : Denotes s vs) (n : Nat) :
    (n ∈ vs ↔ IncludesPerHelp s n) ∧
    (n ∈ vs ↔ ExcludesPerHelp s n ∨ ∃ a b x, s = a ++ '-' :: b ∧ IsNumber a x ∧ IsNumber b n ∧ x < n) := by
  have num : ∀ {s : List Char} {m k : Nat}, IsNumber s m → IsNumber s k → m = k := fun h k => by rw [h.2.2.1, k.2.2.1]
  have dash : ∀ {a b c d : List Char}, (∀ x ∈ a, x ≠ '-') → (∀ x ∈ c, x ≠ '-') → a ++ '-' :: b = c ++ '-' :: d → a = c ∧ b = d := by
    intro a
    induction a with
    | nil =>
      intro b c d _ hc e
      cases c with
      | nil => simpa using e
      | cons x c => simp only [List.nil_append, List.cons_append, List.cons.injEq] at e; exact absurd e.1.symm (hc x (by simp))
    | cons y a ih =>
      intro b c d ha hc e
      cases c with
      | nil => simp only [List.nil_append, List.cons_append, List.cons.injEq] at e; exact absurd e.1 (ha y (by simp))
      | cons x c =>
        simp only [List.cons_append, List.cons.injEq] at e
        obtain ⟨h1, h2⟩ := ih (fun z hz => ha z (by simp [hz])) (fun z hz => hc z (by simp [hz])) e.2
        exact ⟨by rw [e.1, h1], h2⟩
  have nodash : ∀ {s : List Char} {m : Nat}, IsNumber s m → ∀ x ∈ s, x ≠ '-' := by
    intro s m h x hx e
    subst e
    have := h.2.1 '-' hx
    revert this; decide
  rcases h with ⟨m, hm, rfl⟩ | ⟨a, b, x, y, rfl, ha, hb, hxy, _, hv⟩
  · simp only [List.mem_singleton]
    refine ⟨⟨?_, ?_⟩, ⟨?_, ?_⟩⟩
    · rintro rfl; exact .inl hm
    · rintro (h | ⟨a, b, x, y, e, _⟩)
      · exact num h hm
      · exact absurd e (fun e => isNumber_no_dash hm e)
    · rintro rfl; exact .inl (.inl hm)
    · rintro ((h | ⟨a, b, x, y, e, _⟩) | ⟨a, b, x, e, _⟩)
      · exact num h hm
      · exact absurd e (fun e => isNumber_no_dash hm e)
      · exact absurd e (fun e => isNumber_no_dash hm e)
  · have uniq : ∀ {c d : List Char} {u w : Nat}, a ++ '-' :: b = c ++ '-' :: d → IsNumber c u → IsNumber d w → u = x ∧ w = y := by
      intro c d u w e hc hd
      obtain ⟨rfl, rfl⟩ := dash (nodash ha) (nodash hc) e
      exact ⟨num hc ha, num hd hb⟩
    rw [hv]
    refine ⟨⟨?_, ?_⟩, ⟨?_, ?_⟩⟩
    · rintro ⟨h1, h2⟩; exact .inr ⟨a, b, x, y, rfl, ha, hb, h1, h2⟩
    · rintro (h | ⟨c, d, u, w, e, hc, hd, h1, h2⟩)
      · exact absurd rfl (fun e => isNumber_no_dash h e)
      · obtain ⟨rfl, rfl⟩ := uniq e hc hd; exact ⟨h1, h2⟩
    · rintro ⟨h1, h2⟩
      by_cases hn : n < y
      · exact .inl (.inr ⟨a, b, x, y, rfl, ha, hb, h1, hn⟩)
      · have : n = y := by omega
        subst this
        exact .inr ⟨a, b, x, rfl, ha, hb, hxy⟩
    · rintro ((h | ⟨c, d, u, w, e, hc, hd, h1, h2⟩) | ⟨c, d, u, e, hc, hd, h1⟩)
      · exact absurd rfl (fun e => isNumber_no_dash h e)
      · obtain ⟨rfl, rfl⟩ := uniq e hc hd; exact ⟨h1, by omega⟩
      · obtain ⟨rfl, rfl⟩ := uniq e hc hd; exact ⟨by omega, by omega⟩

theorem parse_mem {ud : Char → Bool} (hu : DigitClass ud) {args : List (List Char)} {vs : List Nat} (h : parse ud args = some vs) (n : Nat) :
    (n ∈ vs ↔ ∃ s ∈ args, IncludesPerHelp s n) ∧
    (n ∈ vs ↔ (∃ s ∈ args, ExcludesPerHelp s n) ∨ ∃ s ∈ args, ∃ a b x, s = a ++ '-' :: b ∧ IsNumber a x ∧ IsNumber b n ∧ x < n) := by
  induction args generalizing vs with
  | nil => rw [parse] at h; cases h; simp
  | cons s args ih =>
    obtain ⟨parts, h1, h2, rfl⟩ := (C55_parse ud hu _ _).1 h
    cases parts with
    | nil => simp at h1
    | cons us parts =>
      have hd : Denotes s us := h2 (s, us) (by simp)
      have hp : parse ud args = some parts.flatten := (C55_parse ud hu _ _).2 ⟨parts, by simpa using h1, fun p hp => h2 p (by simp [hp]), rfl⟩
      obtain ⟨i1, i2⟩ := ih hp
      obtain ⟨d1, d2⟩ := denotes_mem hd n
      constructor
      · rw [List.flatten_cons, List.mem_append, i1, d1]
        simp
      · rw [List.flatten_cons, List.mem_append, i2, d2]
        simp only [List.mem_cons, exists_eq_or_imp]
        constructor
        · rintro ((h | h) | (h | h))
          · exact .inl (.inl h)
          · exact .inr (.inl h)
          · exact .inl (.inr h)
          · exact .inr (.inr h)
        · rintro ((h | h) | (h | h))
          · exact .inl (.inl h)
          · exact .inr (.inl h)
          · exact .inl (.inr h)
          · exact .inr (.inr h)

/-- Full statement: on a packet file, `ccsds filter` with valid `--include` and `--exclude` arguments keeps the packets its help says. -/
def C81_full : Prop := ∀ (b : Build) (τ : Epoch → Int) (ud : Char → Bool) (r : Reader) (ps : List Packet) (incl excl : List (List Char)) (w : List (List U8)),
  τ Filter.minEpoch < τ Filter.maxEpoch → DigitClass ud → Decodes r ps → FilterCommand b τ ud r incl excl none none (some (.ok w)) →
  ∃ keep : Packet → Bool, w = (ps.filter keep).map Packet.data ∧ ∀ p ∈ ps, keep p = true ↔ KeptPerHelp incl excl p.header.apid.toNat

theorem filterCommand_ok {b : Build} {τ : Epoch → Int} {ud : Char → Bool} {r : Reader} {incl excl : List (List Char)} {w : List (List U8)}
    (h : FilterCommand b τ ud r incl excl none none (some (.ok w))) :
    ∃ vi ve, parse ud incl = some vi ∧ parse ud excl = some ve ∧ ∃ v ∈ vi ++ ve, v < 2 ^ 16 := by
  unfold FilterCommand at h
  cases hi : parse ud incl with
  | none => simp [hi] at h
  | some vi =>
    cases he : parse ud excl with
    | none => simp [hi, he] at h
    | some ve =>
      simp only [hi, he] at h
      obtain ⟨x, hx, h⟩ := h
      cases hx
      refine ⟨vi, ve, rfl, rfl, ?_⟩
      apply Classical.byContradiction
      intro hn
      have hnil : ∀ vs : List Nat, (∀ v ∈ vs, ¬ v < 2 ^ 16) → toU16 vs = [] := by
        intro vs hv
        unfold toU16
        rw [List.filterMap_eq_nil_iff]
        intro v hm
        rw [if_neg (hv v hm)]
      have h1 := hnil vi (fun v hv hl => hn ⟨v, by simp [hv], hl⟩)
      have h2 := hnil ve (fun v hv hl => hn ⟨v, by simp [hv], hl⟩)
      rw [h1, h2] at h
      have := (C53_no_filters b τ r [] [] none none).2 ⟨rfl, rfl, rfl, rfl⟩
      generalize hr : Filter.FResult.ok w = res at h
      cases h with
      | noFilters => cases hr
      | run hne _ => exact hne ⟨rfl, rfl, rfl, rfl⟩

/-- What happens: a packet is kept if the help says so, except that the end of an excluded range is excluded too; and `--include` counts as not given if
all its values are above 65535. -/
theorem C81_kept (b : Build) (τ : Epoch → Int) (hτ : τ Filter.minEpoch < τ Filter.maxEpoch) (ud : Char → Bool) (hu : DigitClass ud) (r : Reader) (ps : List Packet)
    (hps : Decodes r ps) (incl excl : List (List Char)) (w : List (List U8)) (h : FilterCommand b τ ud r incl excl none none (some (.ok w))) :
    ∃ keep : Packet → Bool, w = (ps.filter keep).map Packet.data ∧ ∀ p ∈ ps, keep p = true ↔
      (KeptPerHelp incl excl p.header.apid.toNat ∨ ((∀ s ∈ incl, ∀ n, IncludesPerHelp s n → 2 ^ 16 ≤ n) ∧ KeptPerHelp [] excl p.header.apid.toNat)) ∧
      ¬ OnlyEndOfExcluded excl p.header.apid.toNat := by
  obtain ⟨vi, ve, hi, he, hne⟩ := filterCommand_ok h
  have hw := (C55_filter_command b τ hτ ud r ps hps incl excl vi ve hi he hne _).1 h
  simp only [Option.some.injEq, Filter.FResult.ok.injEq] at hw
  refine ⟨_, hw, fun p hp => ?_⟩
  rw [decide_eq_true_iff]
  have h1 := fun n => (parse_mem hu hi n).1
  have h2 := fun n => (parse_mem hu he n).2
  have hbig : (∀ v ∈ vi, 2 ^ 16 ≤ v) ↔ ∀ s ∈ incl, ∀ n, IncludesPerHelp s n → 2 ^ 16 ≤ n :=
    ⟨fun h s hs n hn => h n ((h1 n).2 ⟨s, hs, hn⟩), fun h v hv => by obtain ⟨s, hs, hn⟩ := (h1 v).1 hv; exact h s hs v hn⟩
  have hlt : p.header.apid.toNat < 2 ^ 16 := p.header.apid.isLt
  rw [hbig, h1, h2]
  unfold KeptPerHelp OnlyEndOfExcluded
  have hempty : incl = [] → ∀ s ∈ incl, ∀ n, IncludesPerHelp s n → 2 ^ 16 ≤ n := by rintro rfl; simp
  constructor
  · rintro ⟨hk, hx⟩
    have hx1 : ¬ ∃ s ∈ excl, ExcludesPerHelp s p.header.apid.toNat := fun h => hx (.inl h)
    refine ⟨?_, fun h => hx (.inr h.1)⟩
    rcases hk with hk | hk
    · exact .inr ⟨hk, .inl rfl, hx1⟩
    · exact .inl ⟨.inr hk, hx1⟩
  · rintro ⟨hk, hx⟩
    have hx1 : ¬ ∃ s ∈ excl, ExcludesPerHelp s p.header.apid.toNat := hk.elim (·.2) (·.2.2)
    refine ⟨?_, ?_⟩
    · rcases hk with ⟨hk | hk, _⟩ | ⟨hk, _⟩
      · exact .inl (hempty hk)
      · exact .inr hk
      · exact .inl hk
    · rintro (h | h)
      · exact hx1 h
      · exact hx ⟨h, hx1⟩

/-- C81, the part that holds: as the help says, if no packet has an APID that is the end of an excluded range and nothing else excluded, and `--include` is not given or
has a value up to 65535. -/
theorem C81_partial (b : Build) (τ : Epoch → Int) (hτ : τ Filter.minEpoch < τ Filter.maxEpoch) (ud : Char → Bool) (hu : DigitClass ud) (r : Reader) (ps : List Packet)
    (hps : Decodes r ps) (incl excl : List (List Char)) (w : List (List U8)) (h : FilterCommand b τ ud r incl excl none none (some (.ok w)))
    (hx : ∀ p ∈ ps, ¬ OnlyEndOfExcluded excl p.header.apid.toNat) (hi : incl = [] ∨ ∃ s ∈ incl, ∃ n, IncludesPerHelp s n ∧ n < 2 ^ 16) :
    ∃ keep : Packet → Bool, w = (ps.filter keep).map Packet.data ∧ ∀ p ∈ ps, keep p = true ↔ KeptPerHelp incl excl p.header.apid.toNat := by
  obtain ⟨keep, h2, h3⟩ := C81_kept b τ hτ ud hu r ps hps incl excl w h
  refine ⟨keep, h2, fun p hp => ?_⟩
  rw [h3 p hp]
  constructor
  · rintro ⟨hk | ⟨hb, hk⟩, _⟩
    · exact hk
    · rcases hi with rfl | ⟨s, hs, n, hn, hl⟩
      · exact hk
      · have := hb s hs n hn; omega
  · exact fun hk => ⟨.inl hk, hx p hp⟩

open Cmd Framing in
/-- The same for `ccsds framing` and the channels of frames: a frame is selected exactly by this rule. -/
theorem C81_framing {Path : Type} (ud : Char → Bool) (hu : DigitClass ud) (a : FramingArgs Path) (cfg : Option FramingConfig) (vi ve : List Nat)
    (hi : parse ud a.incl = some vi) (he : parse ud a.excl = some ve) (f : Frame) : Wanted (framingArgs a cfg vi ve) f ↔
      (f.header.vcid = 63 → a.base.keepFill = true) ∧ (KeptPerHelp a.incl a.excl f.header.vcid.toNat ∨
        ((∀ s ∈ a.incl, ∀ n, IncludesPerHelp s n → 2 ^ 16 ≤ n) ∧ KeptPerHelp [] a.excl f.header.vcid.toNat)) ∧
      ¬ OnlyEndOfExcluded a.excl f.header.vcid.toNat := by
  have h1 := fun n => (parse_mem hu hi n).1
  have h2 := fun n => (parse_mem hu he n).2
  have hnil : toU16 vi = [] ↔ ∀ s ∈ a.incl, ∀ n, IncludesPerHelp s n → 2 ^ 16 ≤ n := by
    have : toU16 vi = [] ↔ ∀ v ∈ vi, 2 ^ 16 ≤ v := by
      unfold toU16
      rw [List.filterMap_eq_nil_iff]
      refine forall_congr' fun v => forall_congr' fun _ => ?_
      split <;> simp <;> omega
    rw [this]
    exact ⟨fun h s hs n hn => h n ((h1 n).2 ⟨s, hs, hn⟩), fun h v hv => by obtain ⟨s, hs, hn⟩ := (h1 v).1 hv; exact h s hs v hn⟩
  have hempty : a.incl = [] → ∀ s ∈ a.incl, ∀ n, IncludesPerHelp s n → 2 ^ 16 ≤ n := by intro h; rw [h]; simp
  have hfill : (framingArgs a cfg vi ve).keepFill = a.base.keepFill := by
    cases cfg with
    | none => rfl
    | some c =>
      show (withConfig a.base c).keepFill = _
      unfold withConfig
      split <;> rfl
  unfold Wanted
  rw [hfill]
  refine and_congr_right fun _ => ?_
  simp only [framingArgs, C55_apids, hnil, h1, h2]
  unfold KeptPerHelp OnlyEndOfExcluded
  constructor
  · rintro ⟨hk, hx⟩
    have hx1 : ¬ ∃ s ∈ a.excl, ExcludesPerHelp s f.header.vcid.toNat := fun h => hx (.inl h)
    refine ⟨?_, fun h => hx (.inr h.1)⟩
    rcases hk with hk | hk
    · exact .inr ⟨hk, .inl rfl, hx1⟩
    · exact .inl ⟨.inr hk, hx1⟩
  · rintro ⟨hk, hx⟩
    have hx1 : ¬ ∃ s ∈ a.excl, ExcludesPerHelp s f.header.vcid.toNat := hk.elim (·.2) (·.2.2)
    refine ⟨?_, ?_⟩
    · rcases hk with ⟨hk | hk, _⟩ | ⟨hk, _⟩
      · exact .inl (hempty hk)
      · exact .inr hk
      · exact .inl hk
    · rintro (h | h)
      · exact hx1 h
      · exact hx ⟨h, hx1⟩

namespace HelpEx
open RangesEx FilterEx

/-- `--exclude 1-2` on packets of APIDs 1 and 2: nothing is left. -/
theorem run (b : Build) : FilterCommand b tau ascii (Reader.ofBytes stream) [] [['1', '-', '2']] none none (some (.ok [])) :=
  (C55_filter_command b tau (by decide) ascii _ _ decodes [] [['1', '-', '2']] [] [1, 2] rfl (by decide +kernel) ⟨1, by simp, by decide⟩ _).2 (by decide +kernel)

theorem n1 : IsNumber ['1'] 1 := ⟨by simp, by decide, by decide, by decide⟩
theorem n2 : IsNumber ['2'] 2 := ⟨by simp, by decide, by decide, by decide⟩
theorem d12 : Denotes ['1', '-', '2'] [1, 2] :=
  .inr ⟨['1'], ['2'], 1, 2, rfl, n1, n2, by decide, by decide, fun n => by simp only [List.mem_cons, List.not_mem_nil, or_false]; omega⟩

/-- According to the help, APID 2 is not excluded. -/
theorem two : KeptPerHelp [] [['1', '-', '2']] 2 := by
  refine ⟨.inl rfl, ?_⟩
  rintro ⟨s, hs, h⟩
  simp only [List.mem_singleton] at hs
  subst hs
  rcases h with h | ⟨a, b, x, y, e, ha, hb, _, h⟩
  · exact isNumber_no_dash h (a := ['1']) (b := ['2']) rfl
  · have : IncludesPerHelp ['1', '-', '2'] y := .inr ⟨a, b, x, y, e, ha, hb, by omega, Nat.le_refl _⟩
    have := ((denotes_mem d12 y).1).2 this
    simp only [List.mem_cons, List.not_mem_nil, or_false] at this
    omega

end HelpEx

/-- C81 does not hold: `--exclude 1-2` drops a packet of APID 2; its help keeps it. -/
theorem C81_violated : ¬ C81_full := by
  intro h
  obtain ⟨keep, h1, h2⟩ := h ⟨true⟩ FilterEx.tau RangesEx.ascii _ _ _ _ _ (by decide) RangesEx.ascii_class FilterEx.decodes (HelpEx.run _)
  have hk := (h2 (FilterEx.latePkt 14) (by simp)).2 HelpEx.two
  have : FilterEx.latePkt 14 ∈ [FilterEx.earlyPkt 0, FilterEx.latePkt 14].filter keep := List.mem_filter.2 ⟨by simp, hk⟩
  have hl := congrArg List.length h1
  simp only [List.length_nil, List.length_map] at hl
  have := List.length_pos_of_mem this
  omega

/-- The hypotheses of `C81_partial` are met: `--exclude 1`. -/
example (b : Build) : FilterCommand b FilterEx.tau RangesEx.ascii (Reader.ofBytes FilterEx.stream) [] [['1']] none none (some (.ok [FilterEx.late])) ∧
    ∀ p ∈ [FilterEx.earlyPkt 0, FilterEx.latePkt 14], ¬ OnlyEndOfExcluded [['1']] p.header.apid.toNat := by
  refine ⟨(C55_filter_command b FilterEx.tau (by decide) RangesEx.ascii _ _ FilterEx.decodes [] [['1']] [] [1] rfl (by decide +kernel) ⟨1, by simp, by decide⟩ _).2
    (by decide +kernel), ?_⟩
  rintro p _ ⟨⟨s, hs, a, b, x, e, _⟩, _⟩
  simp only [List.mem_singleton] at hs
  subst hs
  exact isNumber_no_dash HelpEx.n1 e

end Ccsds
