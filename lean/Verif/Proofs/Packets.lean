import Verif.Model.Packets
import Verif.Spec.PacketFrames
import Verif.Props.Header
import Verif.Props.Frame
/-! Helper lemmas about the packet reassembly. -/
namespace Ccsds
open Spec

theorem field_append (as bs : List U8) (s w : Nat) (h : s + w ≤ 8 * as.length) : field (as ++ bs) s w = field as s w := by
  rw [← field_take (as ++ bs) as.length s w h, List.take_left' rfl]

theorem packetLen_append (as bs : List U8) (h : 6 ≤ as.length) : packetLen (as ++ bs) = packetLen as := by
  unfold packetLen; rw [field_append _ _ _ _ (by omega)]

theorem packetLen_ge (bs : List U8) : 7 ≤ packetLen bs := by unfold packetLen; omega

/-- Two packets at the front of the same bytes are equal. -/
theorem packet_prefix_unique (p p' r r' : List U8) (h : IsPacket p) (h' : IsPacket p') (e : p ++ r = p' ++ r') : p = p' ∧ r = r' := by
  have : p.length = p'.length := by
    rw [h.2.1, h'.2.1, ← packetLen_append p r h.1, ← packetLen_append p' r' h'.1, e]
  exact List.append_inj e this

theorem noPacket_of_bad (bs : List U8) (h : BadHeader bs) : NoPacket bs := by
  intro p r hp e
  apply h.2
  subst e
  rw [field_append _ _ _ _ (by have := hp.1; omega), field_append _ _ _ _ (by have := hp.1; omega)]
  exact hp.2.2

theorem badHeader_append (as bs : List U8) (h : BadHeader as) : BadHeader (as ++ bs) := by
  refine ⟨by have := h.1; simp; omega, ?_⟩
  have := h.1
  rw [field_append _ _ _ _ (by omega), field_append _ _ _ _ (by omega)]
  exact h.2

theorem badHeader_prefix (as bs : List U8) (h : BadHeader (as ++ bs)) (h6 : 6 ≤ as.length) : BadHeader as := by
  refine ⟨h6, ?_⟩
  have := h.2
  rw [field_append _ _ _ _ (by omega), field_append _ _ _ _ (by omega)] at this
  exact this

theorem noPacket_short (bs : List U8) (h : bs.length < 6) : NoPacket bs := by
  intro p r hp e
  have := hp.1
  have := congrArg List.length e
  simp at this; omega

/-- A stream has exactly one decomposition into packets and a rest that does not start with a packet. -/
theorem parse_unique : ∀ (qs qs' : List (List U8)) (r r' : List U8), (∀ q ∈ qs, IsPacket q) → (∀ q ∈ qs', IsPacket q) →
    NoPacket r → NoPacket r' → qs.flatten ++ r = qs'.flatten ++ r' → qs = qs' ∧ r = r' := by
  intro qs
  induction qs with
  | nil =>
    intro qs' r r' _ h' hr hr' e
    cases qs' with
    | nil => exact ⟨rfl, by simpa using e⟩
    | cons q qs' =>
      simp only [List.flatten_nil, List.nil_append, List.flatten_cons, List.append_assoc] at e
      exact absurd e (hr q _ (h' q (by simp)))
  | cons q qs ih =>
    intro qs' r r' h h' hr hr' e
    cases qs' with
    | nil =>
      simp only [List.flatten_nil, List.nil_append, List.flatten_cons, List.append_assoc] at e
      exact absurd e.symm (hr' q _ (h q (by simp)))
    | cons q' qs' =>
      simp only [List.flatten_cons, List.append_assoc] at e
      obtain ⟨e1, e2⟩ := packet_prefix_unique _ _ _ _ (h q (by simp)) (h' q' (by simp)) e
      obtain ⟨a, b⟩ := ih qs' r r' (fun x hx => h x (by simp [hx])) (fun x hx => h' x (by simp [hx])) hr hr' e2
      exact ⟨by rw [e1, a], b⟩

/-- The front of a stream: a packet, a bad header, or an incomplete packet. -/
theorem stream_front (bs : List U8) : (∃ p r, IsPacket p ∧ bs = p ++ r) ∨ NoPacket bs := by
  by_cases h : ∃ p r, IsPacket p ∧ bs = p ++ r
  · exact .inl h
  · refine .inr ?_
    intro p r hp e
    exact h ⟨p, r, hp, e⟩

theorem parse_exists (bs : List U8) : ∃ (qs : List (List U8)) (r : List U8), bs = qs.flatten ++ r ∧ (∀ q ∈ qs, IsPacket q) ∧ NoPacket r := by
  induction hn : bs.length using Nat.strongRecOn generalizing bs with
  | ind n ih =>
    rcases stream_front bs with ⟨p, r, hp, e⟩ | h
    · have h6 := hp.1
      obtain ⟨qs, r', e', hq, hr⟩ := ih r.length (by subst e hn; simp; omega) r rfl
      refine ⟨p :: qs, r', by rw [e, e']; simp, ?_, hr⟩
      intro q hq'
      simp only [List.mem_cons] at hq'
      rcases hq' with rfl | hq'
      · exact hp
      · exact hq q hq'
    · exact ⟨[], bs, by simp, by simp, h⟩

namespace FramedPackets

theorem valid_iff (bs : List U8) (h : PrimaryHeader) (h6 : 6 ≤ bs.length) (e : PrimaryHeader.decode bs = .ok h) :
    validHeader h = true ↔ (field bs 0 3 = 0 ∧ field bs 3 1 = 0) := by
  obtain ⟨h', e', a, b, _⟩ := C01_fields bs h6
  rw [e] at e'; cases e'
  rw [← a, ← b]
  unfold validHeader
  simp only [Bool.not_eq_true', Bool.or_eq_false_iff, bne_eq_false_iff_eq]
  constructor
  · rintro ⟨x, y⟩; rw [x, y]; exact ⟨rfl, rfl⟩
  · rintro ⟨x, y⟩; exact ⟨BitVec.eq_of_toNat_eq x, BitVec.eq_of_toNat_eq y⟩

/-- What `drain` does, in terms of the stream in the cache. -/
theorem drain_spec (t : Tracker) : ∃ ps rest, t.cache = (ps.map (·.data)).flatten ++ rest ∧
    (∀ p ∈ ps, IsPacket p.data ∧ Good p) ∧ NoPacket rest ∧
    ((BadHeader rest ∧ drain t = .ret (ps, t.reset)) ∨
     (¬ BadHeader rest ∧ drain t = .ret (ps, { t with cache := rest }))) := by
  induction hn : t.cache.length using Nat.strongRecOn generalizing t with
  | ind n ih =>
    subst hn
    rw [drain]
    by_cases h6 : t.cache.length < PrimaryHeader.LEN
    · rw [if_pos h6]
      change t.cache.length < 6 at h6
      refine ⟨[], t.cache, by simp, by simp, noPacket_short _ h6, .inr ⟨?_, rfl⟩⟩
      intro hb; have := hb.1; omega
    · rw [if_neg h6]
      have h6' : 6 ≤ t.cache.length := Nat.le_of_not_lt h6
      obtain ⟨h, e, _, _, _, _, _, _, hlen⟩ := C01_fields t.cache h6'
      rw [e]
      dsimp only
      have hv := valid_iff t.cache h h6' e
      by_cases hval : validHeader h = true
      · rw [hval]
        simp only [Bool.not_true, Bool.false_eq_true, if_false]
        have hneed : h.lenMinus1.toNat + 1 + PrimaryHeader.LEN = packetLen t.cache := by
          unfold packetLen; rw [← hlen]; simp [PrimaryHeader.LEN]; omega
        rw [hneed]
        have h7 := packetLen_ge t.cache
        by_cases hl : t.cache.length < packetLen t.cache
        · rw [dif_pos hl]
          refine ⟨[], t.cache, by simp, by simp, ?_, .inr ⟨fun hb => hb.2 (hv.1 hval), rfl⟩⟩
          intro p r hp ep
          have : packetLen t.cache = p.length := by
            rw [ep, packetLen_append _ _ hp.1, ← hp.2.1]
          have := congrArg List.length ep
          simp at this; omega
        · rw [dif_neg hl]
          have htl : (t.cache.take (packetLen t.cache)).length = packetLen t.cache := by simp; omega
          have e2 : PrimaryHeader.decode (t.cache.take (packetLen t.cache)) = .ok h := by
            rw [← e]
            refine C01_prefix _ _ (by omega) ?_
            rw [List.take_take, Nat.min_eq_left (by omega)]
          rw [e2]
          dsimp only
          obtain ⟨ps, rest, a, b, c, d⟩ := ih (t.cache.drop (packetLen t.cache)).length (by simp; omega)
            { t with cache := t.cache.drop (packetLen t.cache) } rfl
          have hpk : IsPacket (t.cache.take (packetLen t.cache)) := by
            have hfield : ∀ s w, s + w ≤ 48 → field (t.cache.take (packetLen t.cache)) s w = field t.cache s w := by
              intro s w hsw; exact field_take _ _ _ _ (by omega)
            refine ⟨by omega, ?_, ?_, ?_⟩
            · have : packetLen (t.cache.take (packetLen t.cache)) = 6 + field (t.cache.take (packetLen t.cache)) 32 16 + 1 := rfl
              rw [htl, this, hfield _ _ (by omega)]; rfl
            · rw [hfield _ _ (by omega)]; exact (hv.1 hval).1
            · rw [hfield _ _ (by omega)]; exact (hv.1 hval).2
          refine ⟨⟨h, t.cache.take (packetLen t.cache), 0⟩ :: ps, rest, ?_, ?_, c, ?_⟩
          · simp only [List.map_cons, List.flatten_cons, List.append_assoc]
            rw [← a, List.take_append_drop]
          · intro p hp
            simp only [List.mem_cons] at hp
            rcases hp with rfl | hp
            · exact ⟨hpk, e2, rfl⟩
            · exact b p hp
          · rcases d with ⟨d1, d2⟩ | ⟨d1, d2⟩
            · exact .inl ⟨d1, by rw [d2]; rfl⟩
            · exact .inr ⟨d1, by rw [d2]⟩
      · have hb : BadHeader t.cache := ⟨h6', fun x => hval (hv.2 x)⟩
        refine ⟨[], t.cache, by simp, by simp, noPacket_of_bad _ hb, .inl ⟨hb, ?_⟩⟩
        simp [hval]

theorem mpdu_eq (f : Frame) (izone trailer : Nat) (h : ¬ Short izone trailer f) : ∃ m, f.mpdu izone trailer = .ret (some m) ∧
    m.payload = .ret (payloadOf izone trailer f.data) ∧ m.headerOffset = pointerOf izone f.data := by
  unfold Short at h
  obtain ⟨m, p, e1, e2, e3, e4, e5⟩ := (C36_mpdu f izone trailer).2.2 (by omega)
  refine ⟨m, e1, ?_, e3⟩
  rw [e2]
  congr 1
  unfold payloadOf
  have : f.data.drop (6 + izone + 2) = p ++ f.data.drop (f.data.length - trailer) := by
    conv => lhs; rw [e5]
    rw [List.append_assoc, List.drop_left' (by simp; omega)]
  rw [this, List.take_left' (by omega)]

theorem mpdu_short (f : Frame) (izone trailer : Nat) (h : Short izone trailer f) :
    f.mpdu izone trailer = .panic ∨ f.mpdu izone trailer = .ret none := by
  unfold Short at h
  by_cases h1 : f.data.length < 6 + izone + trailer
  · exact .inl ((C36_mpdu f izone trailer).1 h1)
  · exact .inr ((C36_mpdu f izone trailer).2.1 (by omega) h)

/-- Total version of one frame step, in specification terms. -/
def stepT (izone trailer : Nat) (f : Frame) (t : Tracker) : List Packet × Tracker :=
  let t := if f.integrity = some .corrected then { t with rsCorrected := true } else t
  if Bad f then ([], t.reset)
  else
    let t := if f.missing.toNat > 0 then t.reset else t
    let go (t : Tracker) := match drain t with | .ret x => x | .panic => ([], t)
    if t.sync then go { t with cache := t.cache ++ payloadOf izone trailer f.data }
    else if NoStart izone trailer f then ([], t)
    else go { t with sync := true, cache := (payloadOf izone trailer f.data).drop (pointerOf izone f.data) }

theorem onFrame_eq (f : Frame) (izone trailer : Nat) (h : ¬ Short izone trailer f) (t : Tracker) (m : MPDU)
    (hm : f.mpdu izone trailer = .ret (some m)) : onFrame m f t = .ret (stepT izone trailer f t) := by
  obtain ⟨m', e1, e2, e3⟩ := mpdu_eq f izone trailer h
  rw [hm] at e1
  cases e1
  have hd : ∀ t, drain t = .ret (match drain t with | .ret x => x | .panic => ([], t)) := by
    intro t
    obtain ⟨ps, rest, _, _, _, d⟩ := drain_spec t
    rcases d with ⟨_, d⟩ | ⟨_, d⟩ <;> rw [d]
  have hf := C36_flags m
  rw [e3] at hf
  have hh : (!m.hasHeader) = true ↔ pointerOf izone f.data = 0x7ff := by rw [← hf.2]; simp
  unfold onFrame stepT
  by_cases hb : Bad f
  · have hb' := hb
    unfold Bad at hb
    simp only [hb, hb', if_true]
  · have hb' := hb
    unfold Bad at hb
    simp only [hb, hb', if_false, e2, e3]
    generalize (if f.missing.toNat > 0 then _ else _ : Tracker) = u
    by_cases hs : u.sync = true
    · simp only [hs, if_true]; exact hd _
    · simp only [hs, Bool.false_eq_true, if_false]
      by_cases n : NoStart izone trailer f
      · rw [if_pos n]
        by_cases n1 : (!m.hasHeader) = true
        · rw [if_pos n1]
        · rw [if_neg n1]
          by_cases n2 : m.isFill = true
          · rw [if_pos n2]
          · rw [if_neg n2]
            rcases n with n | n | n
            · exact absurd (hh.2 n) n1
            · exact absurd (hf.1.2 n) n2
            · rw [if_pos n]
      · rw [if_neg n]
        unfold NoStart at n
        simp only [not_or] at n
        rw [if_neg (by rw [hh]; exact n.1), if_neg (by rw [hf.1]; exact n.2.1), if_neg (by omega)]
        exact hd _

/-- All frames through the map of trackers: the packets each frame yields. -/
def runAll (izone trailer : Nat) : List Frame → HMap U16 Tracker → List (List Packet)
  | [], _ => []
  | f :: fs, m =>
    let x := stepT izone trailer f ((m.get? f.header.vcid).getD (Tracker.new f.header.vcid))
    x.1 :: runAll izone trailer fs (m.insert f.header.vcid x.2)

/-- One channel. -/
def runChan (izone trailer : Nat) : List Frame → Tracker → List (List Packet)
  | [], _ => []
  | f :: fs, t =>
    let x := stepT izone trailer f t
    x.1 :: runChan izone trailer fs x.2

theorem runAll_length (izone trailer : Nat) (fs : List Frame) (m : HMap U16 Tracker) :
    (runAll izone trailer fs m).length = fs.length := by
  induction fs generalizing m with
  | nil => rfl
  | cons f fs ih => simp [runAll, ih]

theorem loop_cons (izone trailer : Nat) (f : Frame) (fs : List Frame) (m : HMap U16 Tracker) (h : ¬ Short izone trailer f) :
    loop izone trailer (f :: fs) m =
      (let x := stepT izone trailer f ((m.get? f.header.vcid).getD (Tracker.new f.header.vcid))
       match x.1 with
       | [] => loop izone trailer fs (m.insert f.header.vcid x.2)
       | p :: ps => .ret (some p, ⟨fs, izone, trailer, m.insert f.header.vcid x.2, ps⟩)) := by
  obtain ⟨mp, e1, _, _⟩ := mpdu_eq f izone trailer h
  rw [loop, e1]
  dsimp only
  rw [onFrame_eq f izone trailer h _ _ e1]
  generalize stepT izone trailer f _ = x
  obtain ⟨a, b⟩ := x
  cases a <;> rfl

theorem collects_ready (s : State) (l : List Packet) (e : Option State) (ps : List Packet)
    (h : Collects next { s with ready := [] } l e) : Collects next { s with ready := ps } (ps ++ l) e := by
  induction ps with
  | nil => exact h
  | cons p ps ih => exact .step (s' := { s with ready := ps }) rfl ih

/-- Skipping a frame that yields nothing. -/
theorem collects_skip (s s' : State) (l : List Packet) (e : Option State) (h : Collects next s' l e)
    (hn : next s = next s') : Collects next s l e := by
  cases h with
  | done h => exact .done (hn.trans h)
  | panicked h => exact .panicked (hn.trans h)
  | step h k => exact .step (hn.trans h) k

theorem collects_run (izone trailer : Nat) (fs tail : List Frame) (l : List Packet) (e : Option State)
    (hfs : ∀ f ∈ fs, ¬ Short izone trailer f)
    (ht : ∀ m, ∃ e', Collects next ⟨tail, izone, trailer, m, []⟩ l e' ∧ (e'.isSome = e.isSome)) (m : HMap U16 Tracker) :
    ∃ e', Collects next ⟨fs ++ tail, izone, trailer, m, []⟩ ((runAll izone trailer fs m).flatten ++ l) e' ∧
      e'.isSome = e.isSome := by
  induction fs generalizing m with
  | nil => exact ht m
  | cons f fs ih =>
    obtain ⟨e', hc, he⟩ := ih (fun x hx => hfs x (by simp [hx])) (m.insert f.header.vcid
      (stepT izone trailer f ((m.get? f.header.vcid).getD (Tracker.new f.header.vcid))).2)
    refine ⟨e', ?_, he⟩
    have hl := loop_cons izone trailer f (fs ++ tail) m (hfs f (by simp))
    simp only [runAll, List.flatten_cons, List.append_assoc]
    generalize stepT izone trailer f ((m.get? f.header.vcid).getD (Tracker.new f.header.vcid)) = x at hl hc
    obtain ⟨ps, t⟩ := x
    cases ps with
    | nil => exact collects_skip _ _ _ _ hc hl
    | cons p ps =>
      refine .step (s' := ⟨fs ++ tail, izone, trailer, m.insert f.header.vcid t, ps⟩) (by simpa [next] using hl)
        (collects_ready ⟨fs ++ tail, izone, trailer, m.insert f.header.vcid t, ps⟩ _ _ ps hc)

theorem collects_all (izone trailer : Nat) (fs : List Frame) (hfs : ∀ f ∈ fs, ¬ Short izone trailer f) :
    ∃ s, Collects next (new fs izone trailer) (runAll izone trailer fs []).flatten (some s) := by
  obtain ⟨e', hc, he⟩ := collects_run izone trailer fs [] [] (some (new fs izone trailer)) hfs
    (fun m => ⟨some ⟨[], izone, trailer, m, []⟩, .done rfl, rfl⟩) []
  simp only [List.append_nil] at hc
  cases e' with
  | none => simp at he
  | some s => exact ⟨s, hc⟩

theorem collects_short (izone trailer : Nat) (fs : List Frame) (g : Frame) (more : List Frame)
    (hfs : ∀ f ∈ fs, ¬ Short izone trailer f) (hg : Short izone trailer g) :
    Collects next (new (fs ++ g :: more) izone trailer) (runAll izone trailer fs []).flatten none := by
  obtain ⟨e', hc, he⟩ := collects_run izone trailer fs (g :: more) [] none hfs (fun m => ⟨none, .panicked (by
    rcases mpdu_short g izone trailer hg with h | h <;> simp [next, loop, h]), rfl⟩) []
  simp only [List.append_nil] at hc
  cases e' with
  | none => exact hc
  | some s => simp at he

/-- A channel sees only its own frames. -/
theorem runAll_chan (izone trailer : Nat) (fs : List Frame) (m : HMap U16 Tracker) (v : U16) :
    ((fs.zip (runAll izone trailer fs m)).filter (fun x => x.1.header.vcid == v)).map (·.2) =
      runChan izone trailer (fs.filter (fun f => f.header.vcid == v)) ((m.get? v).getD (Tracker.new v)) := by
  induction fs generalizing m with
  | nil => rfl
  | cons f fs ih =>
    simp only [runAll, List.zip_cons_cons, List.filter_cons]
    by_cases hv : f.header.vcid = v
    · subst hv
      simp only [beq_self_eq_true, if_true, List.map_cons, runChan]
      rw [ih, HMap.get?_insert, if_pos rfl]
      rfl
    · have : (f.header.vcid == v) = false := by simpa using hv
      simp only [this, Bool.false_eq_true, if_false]
      rw [ih, HMap.get?_insert, if_neg hv]

/-- `drain` on a cache with a known decomposition. -/
theorem drain_parse (t : Tracker) (qs : List (List U8)) (rest : List U8) (e : t.cache = qs.flatten ++ rest)
    (hq : ∀ q ∈ qs, IsPacket q) (hr : NoPacket rest) : ∃ ps : List Packet, ps.map (·.data) = qs ∧ (∀ p ∈ ps, Good p) ∧
    ((BadHeader rest ∧ drain t = .ret (ps, t.reset)) ∨ (¬ BadHeader rest ∧ drain t = .ret (ps, { t with cache := rest }))) := by
  obtain ⟨ps, rest', a, b, c, d⟩ := drain_spec t
  obtain ⟨e1, e2⟩ := parse_unique qs (ps.map (·.data)) rest rest' hq
    (by intro q hq; obtain ⟨p, hp, rfl⟩ := List.mem_map.1 hq; exact (b p hp).1) hr c (by rw [← e, ← a])
  subst e2
  exact ⟨ps, e1.symm, fun p hp => (b p hp).2, d⟩

theorem good_ext (ps ps' : List Packet) (h : ∀ p ∈ ps, Good p) (h' : ∀ p ∈ ps', Good p)
    (e : ps.map (·.data) = ps'.map (·.data)) : ps = ps' := by
  induction ps generalizing ps' with
  | nil => cases ps' with
    | nil => rfl
    | cons _ _ => simp at e
  | cons p ps ih => cases ps' with
    | nil => simp at e
    | cons p' ps' =>
      simp only [List.map_cons, List.cons.injEq] at e
      have hp := h p (by simp)
      have hp' := h' p' (by simp)
      have : p = p' := by
        obtain ⟨a, b⟩ := hp
        obtain ⟨a', b'⟩ := hp'
        rw [e.1, a'] at a
        injection a with a
        cases p; cases p'
        simp_all
      rw [this, ih ps' (fun x hx => h x (by simp [hx])) (fun x hx => h' x (by simp [hx])) e.2]

/-- Trackers that differ only in bookkeeping. -/
def Same (t u : Tracker) : Prop := t.cache = u.cache ∧ t.sync = u.sync

theorem drain_same (t u : Tracker) (h : Same t u) : ∃ ps t' u', drain t = .ret (ps, t') ∧ drain u = .ret (ps, u') ∧ Same t' u' := by
  obtain ⟨ps, rest, a, b, c, d⟩ := drain_spec t
  obtain ⟨ps', e1, e2, d'⟩ := drain_parse u (ps.map (·.data)) rest (by rw [← h.1, a])
    (by intro q hq; obtain ⟨p, hp, rfl⟩ := List.mem_map.1 hq; exact (b p hp).1) c
  have : ps' = ps := good_ext _ _ e2 (fun p hp => (b p hp).2) e1
  subst this
  rcases d with ⟨d1, d2⟩ | ⟨d1, d2⟩ <;> rcases d' with ⟨d1', d2'⟩ | ⟨d1', d2'⟩
  · exact ⟨_, _, _, d2, d2', rfl, rfl⟩
  · exact absurd d1 d1'
  · exact absurd d1' d1
  · exact ⟨_, _, _, d2, d2', rfl, h.2⟩

theorem stepT_same (izone trailer : Nat) (f : Frame) (t u : Tracker) (h : Same t u) :
    (stepT izone trailer f t).1 = (stepT izone trailer f u).1 ∧ Same (stepT izone trailer f t).2 (stepT izone trailer f u).2 := by
  unfold stepT
  have h1 : Same (if f.integrity = some .corrected then { t with rsCorrected := true } else t)
      (if f.integrity = some .corrected then { u with rsCorrected := true } else u) := by split <;> exact h
  generalize (if f.integrity = some .corrected then { t with rsCorrected := true } else t) = t1 at h1
  generalize (if f.integrity = some .corrected then { u with rsCorrected := true } else u) = u1 at h1
  dsimp only
  split
  · exact ⟨rfl, rfl, rfl⟩
  · have h2 : Same (if f.missing.toNat > 0 then t1.reset else t1) (if f.missing.toNat > 0 then u1.reset else u1) := by
      split
      · exact ⟨rfl, rfl⟩
      · exact h1
    generalize (if f.missing.toNat > 0 then t1.reset else t1) = t2 at h2
    generalize (if f.missing.toNat > 0 then u1.reset else u1) = u2 at h2
    rw [h2.2]
    split
    · obtain ⟨ps, t', u', a, b, c⟩ := drain_same
        ⟨t2.vcid, t2.cache ++ payloadOf izone trailer f.data, t2.rsCorrected, u2.sync⟩
        ⟨u2.vcid, u2.cache ++ payloadOf izone trailer f.data, u2.rsCorrected, u2.sync⟩ ⟨by rw [h2.1], rfl⟩
      rw [a, b]; exact ⟨rfl, c⟩
    · split
      · exact ⟨rfl, h2⟩
      · obtain ⟨ps, t', u', a, b, c⟩ := drain_same
          { t2 with sync := true, cache := (payloadOf izone trailer f.data).drop (pointerOf izone f.data) }
          { u2 with sync := true, cache := (payloadOf izone trailer f.data).drop (pointerOf izone f.data) } ⟨rfl, rfl⟩
        rw [a, b]; exact ⟨rfl, c⟩

theorem runChan_same (izone trailer : Nat) (fs : List Frame) (t u : Tracker) (h : Same t u) :
    runChan izone trailer fs t = runChan izone trailer fs u := by
  induction fs generalizing t u with
  | nil => rfl
  | cons f fs ih =>
    obtain ⟨a, b⟩ := stepT_same izone trailer f t u h
    simp only [runChan, a]
    rw [ih _ _ b]

/-- The tracker of a channel after some frames. -/
def endChan (izone trailer : Nat) : List Frame → Tracker → Tracker
  | [], t => t
  | f :: fs, t => endChan izone trailer fs (stepT izone trailer f t).2

theorem runChan_append (izone trailer : Nat) (fs gs : List Frame) (t : Tracker) :
    runChan izone trailer (fs ++ gs) t = runChan izone trailer fs t ++ runChan izone trailer gs (endChan izone trailer fs t) := by
  induction fs generalizing t with
  | nil => rfl
  | cons f fs ih => simp [runChan, endChan, ih]

/-- Not synchronized trackers have an empty cache. -/
def Idle (t : Tracker) : Prop := t.sync = false ∧ t.cache = []

/-- One frame onto a synchronized tracker. -/
theorem stepT_sync (izone trailer : Nat) (f : Frame) (t : Tracker) (hs : t.sync = true) (hb : ¬ Bad f) (hm : f.missing = 0#32)
    (qs : List (List U8)) (rest : List U8) (e : t.cache ++ payloadOf izone trailer f.data = qs.flatten ++ rest)
    (hq : ∀ q ∈ qs, IsPacket q) (hr : NoPacket rest) :
    ∃ ps : List Packet, ps.map (·.data) = qs ∧ (∀ p ∈ ps, Good p) ∧ (stepT izone trailer f t).1 = ps ∧
      (BadHeader rest → Idle (stepT izone trailer f t).2) ∧
      (¬ BadHeader rest → (stepT izone trailer f t).2.sync = true ∧ (stepT izone trailer f t).2.cache = rest) := by
  unfold stepT
  have hm' : ¬ f.missing.toNat > 0 := by rw [hm]; simp
  have h1 : (if f.integrity = some .corrected then { t with rsCorrected := true } else t).sync = true ∧
      (if f.integrity = some .corrected then { t with rsCorrected := true } else t).cache = t.cache := by
    split <;> exact ⟨hs, rfl⟩
  generalize (if f.integrity = some .corrected then { t with rsCorrected := true } else t) = t1 at h1
  simp only [hb, hm', if_false, h1.1, if_true]
  obtain ⟨ps, a, b, d⟩ := drain_parse { t1 with cache := t1.cache ++ payloadOf izone trailer f.data } qs rest
    (by simp only [h1.2]; exact e) hq hr
  refine ⟨ps, a, b, ?_⟩
  simp only [h1.1] at d
  rcases d with ⟨d1, d2⟩ | ⟨d1, d2⟩
  · rw [d2]; exact ⟨rfl, fun _ => ⟨rfl, rfl⟩, fun n => absurd d1 n⟩
  · rw [d2]; exact ⟨rfl, fun n => absurd n d1, fun _ => ⟨rfl, rfl⟩⟩

/-- One frame onto an idle (or reset) tracker. -/
theorem stepT_start (izone trailer : Nat) (f : Frame) (t : Tracker) (hs : t.sync = false ∨ f.missing ≠ 0#32) (hb : ¬ Bad f)
    (hn : ¬ NoStart izone trailer f)
    (qs : List (List U8)) (rest : List U8) (e : (payloadOf izone trailer f.data).drop (pointerOf izone f.data) = qs.flatten ++ rest)
    (hq : ∀ q ∈ qs, IsPacket q) (hr : NoPacket rest) :
    ∃ ps : List Packet, ps.map (·.data) = qs ∧ (∀ p ∈ ps, Good p) ∧ (stepT izone trailer f t).1 = ps ∧
      (BadHeader rest → Idle (stepT izone trailer f t).2) ∧
      (¬ BadHeader rest → (stepT izone trailer f t).2.sync = true ∧ (stepT izone trailer f t).2.cache = rest) := by
  unfold stepT
  have h1 : (if f.integrity = some .corrected then { t with rsCorrected := true } else t).sync = t.sync := by
    split <;> rfl
  generalize (if f.integrity = some .corrected then { t with rsCorrected := true } else t) = t1 at h1
  have h2 : (if f.missing.toNat > 0 then t1.reset else t1).sync = false := by
    split
    · rfl
    · rename_i hm
      rcases hs with hs | hs
      · rw [h1, hs]
      · exfalso
        apply hs
        exact BitVec.eq_of_toNat_eq (by simp; omega)
  dsimp only
  generalize (if f.missing.toNat > 0 then t1.reset else t1) = t2 at h2
  simp only [hb, if_false, h2, hn, Bool.false_eq_true]
  obtain ⟨ps, a, b, d⟩ := drain_parse
    { t2 with sync := true, cache := (payloadOf izone trailer f.data).drop (pointerOf izone f.data) } qs rest e hq hr
  refine ⟨ps, a, b, ?_⟩
  rcases d with ⟨d1, d2⟩ | ⟨d1, d2⟩
  · rw [d2]; exact ⟨rfl, fun _ => ⟨rfl, rfl⟩, fun n => absurd d1 n⟩
  · rw [d2]; exact ⟨rfl, fun n => absurd n d1, fun _ => ⟨rfl, rfl⟩⟩

/-- A frame that leaves an idle tracker idle. -/
theorem stepT_skip (izone trailer : Nat) (f : Frame) (t : Tracker) (h : Idle t) (hs : Bad f ∨ NoStart izone trailer f) :
    (stepT izone trailer f t).1 = [] ∧ Idle (stepT izone trailer f t).2 := by
  unfold stepT
  have h1 : Idle (if f.integrity = some .corrected then { t with rsCorrected := true } else t) := by split <;> exact h
  generalize (if f.integrity = some .corrected then { t with rsCorrected := true } else t) = t1 at h1
  dsimp only
  split
  · exact ⟨rfl, rfl, rfl⟩
  · rename_i hb
    have h2 : Idle (if f.missing.toNat > 0 then t1.reset else t1) := by
      split
      · exact ⟨rfl, rfl⟩
      · exact h1
    generalize (if f.missing.toNat > 0 then t1.reset else t1) = t2 at h2
    have hn : NoStart izone trailer f := hs.resolve_left hb
    simp only [h2.1, Bool.false_eq_true, if_false, hn, if_true]
    exact ⟨trivial, h2⟩

theorem runChan_skip (izone trailer : Nat) (fs : List Frame) (t : Tracker) (h : Idle t)
    (hs : ∀ f ∈ fs, Bad f ∨ NoStart izone trailer f) :
    (runChan izone trailer fs t).flatten = [] ∧ Idle (endChan izone trailer fs t) := by
  induction fs generalizing t with
  | nil => exact ⟨rfl, h⟩
  | cons f fs ih =>
    obtain ⟨a, b⟩ := stepT_skip izone trailer f t h (hs f (by simp))
    obtain ⟨c, d⟩ := ih _ b (fun x hx => hs x (by simp [hx]))
    exact ⟨by simp [runChan, a, c], d⟩

theorem stepT_bad (izone trailer : Nat) (f : Frame) (t : Tracker) (h : Bad f) :
    (stepT izone trailer f t).1 = [] ∧ Idle (stepT izone trailer f t).2 := by
  unfold stepT
  simp only [h, if_true]
  exact ⟨trivial, rfl, rfl⟩

theorem stepT_missing (izone trailer : Nat) (f : Frame) (t u : Tracker) (h : f.missing ≠ 0#32) :
    (stepT izone trailer f t).1 = (stepT izone trailer f u).1 ∧ Same (stepT izone trailer f t).2 (stepT izone trailer f u).2 := by
  have hm : f.missing.toNat > 0 := by
    have : f.missing.toNat ≠ 0 := fun e => h (BitVec.eq_of_toNat_eq (by simpa using e))
    omega
  have key : ∀ t, (stepT izone trailer f t).1 = (stepT izone trailer f t.reset).1 ∧
      Same (stepT izone trailer f t).2 (stepT izone trailer f t.reset).2 := by
    intro t
    unfold stepT
    simp only [hm, if_true]
    split
    · split <;> exact ⟨rfl, rfl, rfl⟩
    · split <;> exact ⟨rfl, rfl, rfl⟩
  have hr := stepT_same izone trailer f t.reset u.reset ⟨rfl, rfl⟩
  obtain ⟨a, b⟩ := key t
  obtain ⟨c, d⟩ := key u
  exact ⟨a.trans (hr.1.trans c.symm), b.1.trans (hr.2.1.trans d.1.symm), b.2.trans (hr.2.2.trans d.2.symm)⟩

/-- A gap-free run of frames onto a synchronized tracker. -/
theorem runChan_sync (izone trailer : Nat) (fs : List Frame) : ∀ (t : Tracker) (qs : List (List U8)) (rest : List U8),
    t.sync = true → NoPacket t.cache → (∀ f ∈ fs, ¬ Bad f ∧ f.missing = 0#32) →
    t.cache ++ (fs.map (fun f => payloadOf izone trailer f.data)).flatten = qs.flatten ++ rest →
    (∀ q ∈ qs, IsPacket q) → NoPacket rest → ¬ BadHeader rest →
    ((runChan izone trailer fs t).flatten.map (·.data)) = qs ∧ (∀ p ∈ (runChan izone trailer fs t).flatten, Good p) ∧
      (endChan izone trailer fs t).sync = true ∧ (endChan izone trailer fs t).cache = rest := by
  induction fs with
  | nil =>
    intro t qs rest hs hnp _ e hq hr hb
    simp only [List.map_nil, List.flatten_nil, List.append_nil] at e
    obtain ⟨a, b⟩ := parse_unique [] qs t.cache rest (by simp) hq hnp hr (by simpa using e)
    subst a
    exact ⟨rfl, by simp [runChan], hs, b⟩
  | cons f fs ih =>
    intro t qs rest hs hnp hf e hq hr hb
    simp only [List.map_cons, List.flatten_cons] at e
    obtain ⟨qs1, r1, e1, hq1, hr1⟩ := parse_exists (t.cache ++ payloadOf izone trailer f.data)
    obtain ⟨qs2, r2, e2, hq2, hr2⟩ := parse_exists (r1 ++ (fs.map (fun f => payloadOf izone trailer f.data)).flatten)
    obtain ⟨x, y⟩ := parse_unique qs (qs1 ++ qs2) rest r2 hq
      (by intro q hq; exact (List.mem_append.1 hq).elim (hq1 q) (hq2 q)) hr hr2
      (by rw [← e, ← List.append_assoc, e1, List.append_assoc, e2]; simp)
    subst x y
    have hb1 : ¬ BadHeader r1 := by
      intro hbad
      have := badHeader_append r1 (fs.map (fun f => payloadOf izone trailer f.data)).flatten hbad
      rw [e2] at this
      cases qs2 with
      | nil => exact hb this
      | cons q qs2 =>
        simp only [List.flatten_cons, List.append_assoc] at this
        exact noPacket_of_bad _ this q _ (hq2 q (by simp)) rfl
    obtain ⟨ps, a, b, c, _, d⟩ := stepT_sync izone trailer f t hs (hf f (by simp)).1 (hf f (by simp)).2 qs1 r1 e1 hq1 hr1
    obtain ⟨d1, d2⟩ := d hb1
    obtain ⟨i1, i2, i3, i4⟩ := ih (stepT izone trailer f t).2 qs2 rest d1 (by rw [d2]; exact hr1)
      (fun x hx => hf x (by simp [hx])) (by rw [d2]; exact e2) hq2 hr hb
    refine ⟨?_, ?_, i3, i4⟩
    · simp only [runChan, List.flatten_cons, List.map_append, i1, c, a]
    · intro p hp
      simp only [runChan, List.flatten_cons, List.mem_append, c] at hp
      rcases hp with hp | hp
      · exact b p hp
      · exact i2 p hp

/-- The same from a frame whose first header pointer gives synchronization. -/
theorem runChan_start (izone trailer : Nat) (f : Frame) (fs : List Frame) (t : Tracker) (qs : List (List U8)) (rest : List U8)
    (hs : t.sync = false ∨ f.missing ≠ 0#32) (hb : ¬ Bad f) (hn : ¬ NoStart izone trailer f)
    (hf : ∀ f ∈ fs, ¬ Bad f ∧ f.missing = 0#32)
    (e : (payloadOf izone trailer f.data).drop (pointerOf izone f.data) ++
      (fs.map (fun f => payloadOf izone trailer f.data)).flatten = qs.flatten ++ rest)
    (hq : ∀ q ∈ qs, IsPacket q) (hr : NoPacket rest) (hbr : ¬ BadHeader rest) :
    ((runChan izone trailer (f :: fs) t).flatten.map (·.data)) = qs ∧
      (∀ p ∈ (runChan izone trailer (f :: fs) t).flatten, Good p) ∧
      (endChan izone trailer (f :: fs) t).sync = true ∧ (endChan izone trailer (f :: fs) t).cache = rest := by
  obtain ⟨qs1, r1, e1, hq1, hr1⟩ := parse_exists ((payloadOf izone trailer f.data).drop (pointerOf izone f.data))
  obtain ⟨qs2, r2, e2, hq2, hr2⟩ := parse_exists (r1 ++ (fs.map (fun f => payloadOf izone trailer f.data)).flatten)
  obtain ⟨x, y⟩ := parse_unique qs (qs1 ++ qs2) rest r2 hq
    (by intro q hq; exact (List.mem_append.1 hq).elim (hq1 q) (hq2 q)) hr hr2
    (by rw [← e, e1, List.append_assoc, e2]; simp)
  subst x y
  have hb1 : ¬ BadHeader r1 := by
    intro hbad
    have := badHeader_append r1 (fs.map (fun f => payloadOf izone trailer f.data)).flatten hbad
    rw [e2] at this
    cases qs2 with
    | nil => exact hbr this
    | cons q qs2 =>
      simp only [List.flatten_cons, List.append_assoc] at this
      exact noPacket_of_bad _ this q _ (hq2 q (by simp)) rfl
  obtain ⟨ps, a, b, c, _, d⟩ := stepT_start izone trailer f t hs hb hn qs1 r1 e1 hq1 hr1
  obtain ⟨d1, d2⟩ := d hb1
  obtain ⟨i1, i2, i3, i4⟩ := runChan_sync izone trailer fs (stepT izone trailer f t).2 qs2 rest d1 (by rw [d2]; exact hr1)
    hf (by rw [d2]; exact e2) hq2 hr hbr
  refine ⟨?_, ?_, i3, i4⟩
  · simp only [runChan, List.flatten_cons, List.map_append, i1, c, a]
  · intro p hp
    simp only [runChan, List.flatten_cons, List.mem_append, c] at hp
    rcases hp with hp | hp
    · exact b p hp
    · exact i2 p hp

/-- A single channel is its own run. -/
theorem runAll_single (izone trailer : Nat) (fs : List Frame) (v : U16) (hv : ∀ f ∈ fs, f.header.vcid = v) :
    runAll izone trailer fs [] = runChan izone trailer fs (Tracker.new v) := by
  have h := runAll_chan izone trailer fs [] v
  have h1 : fs.filter (fun f => f.header.vcid == v) = fs := List.filter_eq_self.2 (fun f hf => by simpa using hv f hf)
  have h2 : (fs.zip (runAll izone trailer fs [])).filter (fun x => x.1.header.vcid == v) = fs.zip (runAll izone trailer fs []) := by
    refine List.filter_eq_self.2 (fun x hx => ?_)
    simpa using hv x.1 (List.of_mem_zip hx).1
  rw [h1, h2] at h
  rw [← show (fs.zip (runAll izone trailer fs [])).map (·.2) = runAll izone trailer fs [] from
    List.map_snd_zip (by rw [runAll_length]; omega)]
  exact h

end FramedPackets
end Ccsds
