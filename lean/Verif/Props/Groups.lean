import Verif.Props.Summary
/-!
# C11 – C13: packet groups
-/
namespace Ccsds
open Spec

theorem mem_takeWhile_imp {α : Type} (f : α → Bool) (l : List α) (x : α) (h : x ∈ l.takeWhile f) : f x = true := by
  induction l with
  | nil => cases h
  | cons a l ih =>
    rw [List.takeWhile_cons] at h
    split at h
    · rcases List.mem_cons.1 h with rfl | h
      · assumption
      · exact ih h
    · cases h

namespace PacketGroupIter

/-- Packets not yet returned: the cached one, then those of the underlying iterator. -/
def pending (s : PacketGroupIter) : List Packet := s.cached.toList ++ s.packets

theorem loop_some (ps : List Packet) (g : PacketGroup) (a : U16)
    (hg : g.packets.head?.map (·.header.apid) = some a) :
    loop ps (some g) = match ps.dropWhile (fun p => p.header.apid == a) with
      | [] => .inr (some { g with packets := g.packets ++ ps.takeWhile (fun p => p.header.apid == a) })
      | p :: rest => .inl (some { g with packets := g.packets ++ ps.takeWhile (fun p => p.header.apid == a) },
          ⟨rest, some p, false⟩) := by
  induction ps generalizing g with
  | nil => simp [loop]
  | cons p ps ih =>
    simp only [loop, hg, ne_eq, Option.some.injEq]
    by_cases h : p.header.apid = a
    · rw [if_neg (by simpa using h), ih]
      · simp [h]
      · simp only [List.head?_append]
        cases hh : g.packets.head? with
        | none => rw [hh] at hg; simp at hg
        | some x => rw [hh] at hg; simpa using hg
    · rw [if_pos (by simpa using h)]
      simp [h]

/-- The packets that join the group started by `p`, and those that are left. -/
def joins (p : Packet) (ps : List Packet) : List Packet :=
  if p.isStandalone then [] else ps.takeWhile (fun q => q.header.apid == p.header.apid)
def leaves (p : Packet) (ps : List Packet) : List Packet :=
  if p.isStandalone then ps else ps.dropWhile (fun q => q.header.apid == p.header.apid)

theorem next_cons (s : PacketGroupIter) (hd : s.done = false) (p : Packet) (ps : List Packet) (hp : s.pending = p :: ps) :
    ∃ s', next s = .ret (some (.ok ⟨p.header.apid, p :: joins p ps⟩), s') ∧ s'.done = false ∧ s'.pending = leaves p ps := by
  unfold next
  rw [show s.cached.toList ++ s.packets = p :: ps from hp]
  simp only [hd, Bool.false_eq_true, if_false, loop]
  by_cases hs : p.isStandalone
  · simp only [hs, if_true, joins, leaves]
    exact ⟨_, rfl, rfl, rfl⟩
  · simp only [hs, Bool.false_eq_true, if_false, joins, leaves]
    rw [loop_some ps _ p.header.apid rfl]
    cases hdw : ps.dropWhile (fun q => q.header.apid == p.header.apid) with
    | nil => exact ⟨_, rfl, rfl, rfl⟩
    | cons q rest => exact ⟨_, rfl, rfl, rfl⟩

theorem next_nil (s : PacketGroupIter) (hd : s.done = false) (hp : s.pending = []) :
    next s = .ret (none, ⟨[], none, true⟩) := by
  unfold next
  rw [show s.cached.toList ++ s.packets = [] from hp]
  simp [hd, loop]

theorem joins_leaves (p : Packet) (ps : List Packet) : joins p ps ++ leaves p ps = ps := by
  unfold joins leaves; split
  · rfl
  · exact List.takeWhile_append_dropWhile

theorem leaves_length (p : Packet) (ps : List Packet) : (leaves p ps).length ≤ ps.length := by
  have := congrArg List.length (joins_leaves p ps)
  rw [List.length_append] at this
  omega

theorem joins_apid (p : Packet) (ps : List Packet) : ∀ q ∈ joins p ps, q.header.apid = p.header.apid := by
  unfold joins; split
  · simp
  · intro q hq
    simpa using mem_takeWhile_imp _ _ _ hq

end PacketGroupIter

open PacketGroupIter in
theorem C11_aux (n : Nat) : ∀ s : PacketGroupIter, s.done = false → s.pending.length ≤ n →
    ∃ (gs : List PacketGroup) (s' : _), Collects next s (gs.map .ok) (some s') ∧ gs.flatMap PacketGroup.packets = s.pending ∧
      ∀ g ∈ gs, g.packets ≠ [] ∧ ∀ p ∈ g.packets, p.header.apid = g.apid := by
  induction n with
  | zero =>
    intro s hd hl
    have hp : s.pending = [] := List.eq_nil_of_length_eq_zero (by omega)
    exact ⟨[], _, .done (next_nil s hd hp), by simp [hp], by simp⟩
  | succ n ih =>
    intro s hd hl
    cases hp : s.pending with
    | nil => exact ⟨[], _, .done (next_nil s hd hp), by simp, by simp⟩
    | cons p ps =>
      obtain ⟨s1, h1, h2, h3⟩ := next_cons s hd p ps hp
      have hll := leaves_length p ps
      rw [hp] at hl
      simp only [List.length_cons] at hl
      obtain ⟨gs, s', hc, hf, hg⟩ := ih s1 h2 (by rw [h3]; omega)
      refine ⟨⟨p.header.apid, p :: joins p ps⟩ :: gs, s', .step h1 hc, ?_, ?_⟩
      · simp only [List.flatMap_cons, hf, h3, List.cons_append, joins_leaves]
      · intro g hgm
        rcases List.mem_cons.1 hgm with rfl | hgm
        · refine ⟨by simp, fun q hq => ?_⟩
          rcases List.mem_cons.1 hq with rfl | hq
          · rfl
          · exact joins_apid p ps q hq
        · exact hg g hgm

/-! ## C11  `collect_groups` is a lossless ordered partition -/

/-- For every packet sequence all results are `Ok`, every group is non-empty, all its packets have the group's APID, and the
groups' packets in order are the input sequence exactly; then the iterator ends. -/
theorem C11_partition (ps : List Packet) :
    ∃ (gs : List PacketGroup) (s : _), Collects PacketGroupIter.next (PacketGroupIter.new ps) (gs.map .ok) (some s) ∧
      gs.flatMap PacketGroup.packets = ps ∧
      ∀ g ∈ gs, g.packets ≠ [] ∧ ∀ p ∈ g.packets, p.header.apid = g.apid :=
  C11_aux ps.length (PacketGroupIter.new ps) rfl (by simp [PacketGroupIter.pending, PacketGroupIter.new])

/-- Once ended, the iterator stays ended. -/
theorem C11_fused (s s' : PacketGroupIter) (h : PacketGroupIter.next s = .ret (none, s')) :
    PacketGroupIter.next s' = .ret (none, s') := by
  by_cases hd : s.done
  · have : PacketGroupIter.next s = .ret (none, s) := by simp [PacketGroupIter.next, hd]
    rw [this] at h
    injection h with h
    injection h with _ h
    subst h; exact this
  · have hd' : s.done = false := by simpa using hd
    cases hp : s.pending with
    | nil =>
      rw [PacketGroupIter.next_nil s hd' hp] at h
      injection h with h
      injection h with _ h
      subst h; rfl
    | cons p ps =>
      obtain ⟨s1, h1, _⟩ := PacketGroupIter.next_cons s hd' p ps hp
      rw [h1] at h; simp at h

/-! ## C12  `collect_groups` recovers the sender's groups -/

/-- A group as a sender produces it: one unsegmented packet, or FIRST CONTINUATION* LAST of one APID. -/
inductive SenderGroup : List Packet → Prop where
  | single (p : Packet) : p.isStandalone = true → SenderGroup [p]
  | segmented (first last : Packet) (cont : List Packet) : first.isFirst = true → last.isLast = true →
      (∀ c ∈ cont, c.isCont = true ∧ c.header.apid = first.header.apid) → last.header.apid = first.header.apid →
      SenderGroup (first :: (cont ++ [last]))

/-- `collect_groups` on the packets `ps` yields exactly the packet lists `gs`. -/
def Groups (ps : List Packet) (gs : List (List Packet)) : Prop :=
  ∃ (out : List PacketGroup) (s : _), Collects PacketGroupIter.next (PacketGroupIter.new ps) (out.map .ok) (some s) ∧
    out.map PacketGroup.packets = gs

/-- Full statement. -/
def C12_full : Prop := ∀ gs : List (List Packet), (∀ g ∈ gs, SenderGroup g) → Groups gs.flatten gs

/-- The code violates it: a complete two-packet group followed by an unsegmented packet of the same APID becomes one
group of three. -/
theorem C12_violated : ¬ C12_full := by
  intro h
  let mk (fl : U8) (n : U16) : Packet := ⟨⟨0, 0, true, 1369, fl, n, 0⟩, [0x0d, 0x59, 0, 0, 0, 0, 0], 0⟩
  obtain ⟨out, s, hc, ho⟩ := h [[mk 1 0, mk 2 1], [mk 3 2]] (by
    intro g hg
    simp only [List.mem_cons, List.not_mem_nil, or_false] at hg
    rcases hg with rfl | rfl
    · exact .segmented (mk 1 0) (mk 2 1) [] rfl rfl (by simp) rfl
    · exact .single _ rfl)
  have hc' : Collects PacketGroupIter.next (PacketGroupIter.new [mk 1 0, mk 2 1, mk 3 2])
      [.ok ⟨1369, [mk 1 0, mk 2 1, mk 3 2]⟩] (some ⟨[], none, true⟩) :=
    .step (s' := ⟨[], none, false⟩) (by rfl) (.done (by rfl))
  have hu := (hc.unique hc').1
  have hl := congrArg List.length hu
  have hl2 := congrArg List.length ho
  simp at hl hl2
  omega

/-- In `gs`, a group of more than one packet is never directly followed by a group of the same APID. -/
def ApidChanges : List (List Packet) → Prop
  | g :: h :: gs => (2 ≤ g.length → (h.head?.map (·.header.apid)) ≠ (g.head?.map (·.header.apid))) ∧ ApidChanges (h :: gs)
  | _ => True

theorem senderGroup_ne_nil {g : List Packet} (h : SenderGroup g) : g ≠ [] := by cases h <;> simp

open PacketGroupIter in
theorem C12_aux (gs : List (List Packet)) : ∀ s : PacketGroupIter, s.done = false → s.pending = gs.flatten →
    (∀ g ∈ gs, SenderGroup g) → ApidChanges gs →
    ∃ (out : List PacketGroup) (s' : _), Collects next s (out.map .ok) (some s') ∧ out.map PacketGroup.packets = gs := by
  induction gs with
  | nil => intro s hd hp _ _; exact ⟨[], _, .done (next_nil s hd hp), rfl⟩
  | cons g gs ih =>
    intro s hd hp hs ha
    have ha' : ApidChanges gs := by
      cases gs with
      | nil => trivial
      | cons h gs => exact ha.2
    have hs' : ∀ g ∈ gs, SenderGroup g := fun g hg => hs g (List.mem_cons_of_mem _ hg)
    suffices hsuf : ∃ p rest, g = p :: rest ∧ joins p (rest ++ gs.flatten) = rest ∧
        leaves p (rest ++ gs.flatten) = gs.flatten by
      obtain ⟨p, rest, rfl, hj, hl⟩ := hsuf
      obtain ⟨s1, h1, h2, h3⟩ := next_cons s hd p (rest ++ gs.flatten) (by simpa using hp)
      rw [hl] at h3
      rw [hj] at h1
      obtain ⟨out, s', hc, ho⟩ := ih s1 h2 h3 hs' ha'
      exact ⟨_ :: out, s', .step h1 hc, by simp [ho]⟩
    cases hs g List.mem_cons_self with
    | single p hp' => exact ⟨p, [], rfl, by simp [joins, hp'], by simp [leaves, hp']⟩
    | segmented first last cont hf hl hc hla =>
      refine ⟨first, cont ++ [last], rfl, ?_⟩
      have hns : first.isStandalone = false := by
        simp only [Packet.isFirst, Packet.isStandalone, beq_iff_eq] at hf ⊢
        rw [hf]; rfl
      have hall : ∀ q ∈ cont ++ [last], (q.header.apid == first.header.apid) = true := by
        intro q hq
        rcases List.mem_append.1 hq with hq | hq
        · simpa using (hc q hq).2
        · simp only [List.mem_cons, List.not_mem_nil, or_false] at hq; subst hq; simpa using hla
      have hnext : gs.flatten.takeWhile (fun q => q.header.apid == first.header.apid) = [] ∧
          gs.flatten.dropWhile (fun q => q.header.apid == first.header.apid) = gs.flatten := by
        cases gs with
        | nil => simp
        | cons h gs =>
          obtain ⟨q, h', rfl⟩ := List.exists_cons_of_ne_nil (senderGroup_ne_nil (hs' h List.mem_cons_self))
          have := ha.1 (by simp)
          simp only [List.head?_cons, Option.map_some, ne_eq, Option.some.injEq] at this
          simp [this]
      simp only [joins, leaves, hns, Bool.false_eq_true, if_false]
      rw [List.takeWhile_append_of_pos hall, List.dropWhile_append_of_pos hall, hnext.1, hnext.2, List.append_nil]
      exact ⟨rfl, rfl⟩

/-- True part: the sender's groups are recovered when every segmented group is followed by a packet of a different APID
(or by the end).  Missing: segmented groups followed by a packet of the same APID, which the code merges (`C12_violated`). -/
theorem C12_partial (gs : List (List Packet)) (hs : ∀ g ∈ gs, SenderGroup g) (ha : ApidChanges gs) : Groups gs.flatten gs :=
  C12_aux gs (PacketGroupIter.new gs.flatten) rfl (by simp [PacketGroupIter.pending, PacketGroupIter.new]) hs ha

/-- How `collect_groups` cuts a packet sequence: an unsegmented packet at the beginning of a group is a group by itself, every
other group has packets of one APID only and goes on for as long as the APID does not change, whatever the sequence flags. -/
def CutWhereApidChanges : List (List Packet) → Prop
  | [] => True
  | g :: gs => (∃ p rest, g = p :: rest ∧ (p.isStandalone = true → rest = []) ∧ (∀ q ∈ rest, q.header.apid = p.header.apid) ∧
      (p.isStandalone = false → ∀ h ∈ gs.head?, h.head?.map (·.header.apid) ≠ some p.header.apid)) ∧ CutWhereApidChanges gs

theorem joins_leaves_cut (p : Packet) (rest : List Packet) (gs : List (List Packet)) (h1 : p.isStandalone = true → rest = [])
    (h2 : ∀ q ∈ rest, q.header.apid = p.header.apid)
    (h3 : p.isStandalone = false → ∀ h ∈ gs.head?, h.head?.map (·.header.apid) ≠ some p.header.apid) (hg : CutWhereApidChanges gs) :
    PacketGroupIter.joins p (rest ++ gs.flatten) = rest ∧ PacketGroupIter.leaves p (rest ++ gs.flatten) = gs.flatten := by
  cases hs : p.isStandalone with
  | true =>
    have := h1 hs
    subst this
    simp [PacketGroupIter.joins, PacketGroupIter.leaves, hs]
  | false =>
    have hall : ∀ q ∈ rest, (q.header.apid == p.header.apid) = true := fun q hq => by simpa using h2 q hq
    have hnext : gs.flatten.takeWhile (fun q => q.header.apid == p.header.apid) = [] ∧
        gs.flatten.dropWhile (fun q => q.header.apid == p.header.apid) = gs.flatten := by
      cases gs with
      | nil => simp
      | cons h gs =>
        obtain ⟨⟨q, h', rfl, _⟩, _⟩ := hg
        have := h3 hs _ rfl
        simp only [List.head?_cons, Option.map_some, ne_eq, Option.some.injEq] at this
        simp [this]
    simp only [PacketGroupIter.joins, PacketGroupIter.leaves, hs, Bool.false_eq_true, if_false]
    rw [List.takeWhile_append_of_pos hall, List.dropWhile_append_of_pos hall, hnext.1, hnext.2, List.append_nil]
    exact ⟨rfl, rfl⟩

open PacketGroupIter in
theorem cut_run (gs : List (List Packet)) : ∀ s : PacketGroupIter, s.done = false → s.pending = gs.flatten → CutWhereApidChanges gs →
    ∃ (out : List PacketGroup) (s' : _), Collects next s (out.map .ok) (some s') ∧ out.map PacketGroup.packets = gs := by
  induction gs with
  | nil => intro s hd hp _; exact ⟨[], _, .done (next_nil s hd hp), rfl⟩
  | cons g gs ih =>
    intro s hd hp hg
    obtain ⟨⟨p, rest, rfl, h1, h2, h3⟩, hg'⟩ := hg
    obtain ⟨hj, hl⟩ := joins_leaves_cut p rest gs h1 h2 h3 hg'
    obtain ⟨s1, e1, e2, e3⟩ := next_cons s hd p (rest ++ gs.flatten) (by simpa using hp)
    rw [hl] at e3
    rw [hj] at e1
    obtain ⟨out, s', hc, ho⟩ := ih s1 e2 e3 hg'
    exact ⟨_ :: out, s', .step e1 hc, by simp [ho]⟩

open PacketGroupIter in
theorem cut_exists (n : Nat) : ∀ ps : List Packet, ps.length ≤ n → ∃ gs, gs.flatten = ps ∧ CutWhereApidChanges gs := by
  induction n with
  | zero => intro ps h; exact ⟨[], by rw [List.eq_nil_of_length_eq_zero (by omega : ps.length = 0)]; rfl, trivial⟩
  | succ n ih =>
    intro ps hl
    cases ps with
    | nil => exact ⟨[], rfl, trivial⟩
    | cons p ps =>
      have hll := leaves_length p ps
      simp only [List.length_cons] at hl
      obtain ⟨gs, e1, e2⟩ := ih (leaves p ps) (by omega)
      refine ⟨(p :: joins p ps) :: gs, by simp [e1, joins_leaves], ⟨p, joins p ps, rfl, ?_, joins_apid p ps, ?_⟩, e2⟩
      · intro hs; simp [joins, hs]
      · intro hs h hh
        cases gs with
        | nil => simp at hh
        | cons h' gs =>
          simp only [List.head?_cons, Option.mem_def, Option.some.injEq] at hh
          subst hh
          obtain ⟨⟨q, h'', rfl, _⟩, _⟩ := e2
          have hq : ps.dropWhile (fun q => q.header.apid == p.header.apid) = q :: (h'' ++ gs.flatten) := by
            have := e1
            simp only [leaves, hs, Bool.false_eq_true, if_false] at this
            rw [← this]; simp
          have hne := List.head?_dropWhile_not (fun q : Packet => q.header.apid == p.header.apid) ps
          rw [hq] at hne
          simpa using hne

/-- C12, exactly: on every packet sequence, the groups are the one way to cut it where the APID changes (or around an
unsegmented packet that begins a group). -/
theorem C12_exact (ps : List Packet) (gs : List (List Packet)) : Groups ps gs ↔ gs.flatten = ps ∧ CutWhereApidChanges gs := by
  have fwd : ∀ gs : List (List Packet), gs.flatten = ps → CutWhereApidChanges gs → Groups ps gs := by
    rintro gs rfl h
    exact cut_run gs (PacketGroupIter.new gs.flatten) rfl (by simp [PacketGroupIter.pending, PacketGroupIter.new]) h
  refine ⟨?_, fun ⟨h1, h2⟩ => fwd gs h1 h2⟩
  rintro ⟨out, s, hc, ho⟩
  obtain ⟨gs', e1, e2⟩ := cut_exists ps.length ps (Nat.le_refl _)
  obtain ⟨out', s', hc', ho'⟩ := fwd gs' e1 e2
  have hu := (hc.unique hc').1
  have : out = out' := (List.map_inj_right (fun a b h => by injection h)).1 hu
  subst this
  rw [← ho, ho']
  exact ⟨e1, e2⟩

/-- C12: the sender's groups are recovered if and only if no segmented group is directly followed by a packet of its APID. -/
theorem C12_recovered_iff (gs : List (List Packet)) (hs : ∀ g ∈ gs, SenderGroup g) : Groups gs.flatten gs ↔ ApidChanges gs := by
  refine ⟨?_, C12_partial gs hs⟩
  intro h
  have hcut := ((C12_exact _ _).1 h).2
  clear h
  induction gs with
  | nil => trivial
  | cons g gs ih =>
    cases gs with
    | nil => trivial
    | cons h gs =>
      refine ⟨?_, ih (fun g hg => hs g (List.mem_cons_of_mem _ hg)) hcut.2⟩
      intro h2
      obtain ⟨⟨p, rest, rfl, h1, _, h3⟩, _⟩ := hcut
      have hsa : p.isStandalone = false := by
        cases hp : p.isStandalone with
        | false => rfl
        | true => rw [h1 hp] at h2; simp at h2
      have := h3 hsa h rfl
      simpa using this

/-- Two unsegmented packets, a segmented group of APID 5, a packet of APID 9. -/
example : let mk (a : U16) (fl : U8) (n : U16) : Packet := ⟨⟨0, 0, true, a, fl, n, 0⟩, [0, 0, 0, 0, 0, 0, 0], 0⟩
    let gs := [[mk 5 3 0], [mk 5 3 1], [mk 5 1 2, mk 5 0 3, mk 5 2 4], [mk 9 3 0]]
    (∀ g ∈ gs, SenderGroup g) ∧ ApidChanges gs := by
  intro mk gs
  refine ⟨?_, ?_⟩
  · intro g hg
    simp only [gs, List.mem_cons, List.not_mem_nil, or_false] at hg
    rcases hg with rfl | rfl | rfl | rfl
    · exact .single _ rfl
    · exact .single _ rfl
    · exact .segmented (mk 5 1 2) (mk 5 2 4) [mk 5 0 3] rfl rfl (by simp [mk, Packet.isCont]; rfl) rfl
    · exact .single _ rfl
  · simp [gs, ApidChanges, mk]

/-! ## C13  `PacketGroup::complete` and `have_missing` -/

/-- Every packet's sequence id is the successor, modulo 16384, of its predecessor's. -/
def Consecutive : List Packet → Prop
  | p :: q :: ps => q.header.sequenceId.toNat = (p.header.sequenceId.toNat + 1) % 16384 ∧ Consecutive (q :: ps)
  | _ => True

/-- The same by positions, for readers. -/
theorem consecutive_iff (ps : List Packet) : Consecutive ps ↔ ∀ i (h : i + 1 < ps.length),
    (ps[i + 1]).header.sequenceId.toNat = ((ps[i]).header.sequenceId.toNat + 1) % 16384 := by
  induction ps with
  | nil => simp [Consecutive]
  | cons p ps ih =>
    cases ps with
    | nil => simp [Consecutive]
    | cons q ps =>
      simp only [Consecutive, ih]
      constructor
      · rintro ⟨h1, h2⟩ i hi
        cases i with
        | zero => exact h1
        | succ i => exact h2 i (by simpa using hi)
      · intro h
        exact ⟨h 0 (by simp), fun i hi => h (i + 1) (by simpa using hi)⟩

theorem missingLoop_spec (b : Build) (ps : List Packet) (hv : ValidIds ps) :
    ∃ r, PacketGroup.missingLoop b ps = .ret r ∧ (r = true ↔ ¬ Consecutive ps) := by
  induction ps with
  | nil => exact ⟨false, rfl, by simp [Consecutive]⟩
  | cons p ps ih =>
    cases ps with
    | nil => exact ⟨false, rfl, by simp [Consecutive]⟩
    | cons q ps =>
      obtain ⟨r, h1, h2⟩ := ih (fun x hx => hv x (List.mem_cons_of_mem _ hx))
      obtain ⟨m, hm, _, hz⟩ := C08_zero_iff b q.header.sequenceId p.header.sequenceId (hv q (by simp)) (hv p (by simp))
      simp only [PacketGroup.missingLoop, hm, Outcome.ret_bind, Outcome.pure_eq, gt_iff_lt, BitVec.lt_def]
      have hz0 : (0 : U16).toNat = 0 := rfl
      rw [hz0]
      by_cases h0 : 0 < m.toNat
      · exact ⟨true, by rw [if_pos h0], by simp only [Consecutive, true_iff]; intro hc; have := hz.2 hc.1; omega⟩
      · refine ⟨r, by rw [if_neg h0]; exact h1, ?_⟩
        have hh := hz.1 (by omega)
        rw [h2, Consecutive]
        simp [hh]

/-- `have_missing` on a non-empty packet vector is "some adjacent pair is not consecutive"; on an empty one it panics. -/
theorem C13_have_missing (b : Build) (g : PacketGroup) (hv : ValidIds g.packets) :
    (g.packets = [] → g.haveMissing b = .panic) ∧
    (g.packets ≠ [] → ∃ r, g.haveMissing b = .ret r ∧ (r = true ↔ ¬ Consecutive g.packets)) := by
  refine ⟨fun h => by simp [PacketGroup.haveMissing, h], fun h => ?_⟩
  simp only [PacketGroup.haveMissing, h, if_false]
  exact missingLoop_spec b g.packets hv

/-- `complete` never panics and is exactly completeness. -/
theorem C13_complete (b : Build) (g : PacketGroup) (hv : ValidIds g.packets) :
    ∃ r, g.complete b = .ret r ∧
      (r = true ↔ (∃ p, g.packets = [p] ∧ p.header.sequenceFlags.toNat = 3) ∨
        (∃ first mid last, g.packets = first :: (mid ++ [last]) ∧ first.header.sequenceFlags.toNat = 1 ∧
          last.header.sequenceFlags.toNat = 2 ∧ Consecutive g.packets)) := by
  have flag : ∀ (x : U8) (k : Nat), k < 256 → ((x == BitVec.ofNat 8 k) = true ↔ x.toNat = k) := by
    intro x k hk
    rw [beq_iff_eq]
    constructor
    · rintro rfl; simp; omega
    · intro h; apply BitVec.eq_of_toNat_eq; simp; omega
  unfold PacketGroup.complete
  match hps : g.packets with
  | [] => exact ⟨false, rfl, by simp⟩
  | [p] =>
    refine ⟨p.isStandalone, rfl, ?_⟩
    simp only [Packet.isStandalone, PrimaryHeader.SEQ_UNSEGMENTED]
    rw [show ((3 : U8)) = BitVec.ofNat 8 3 from rfl, flag _ 3 (by omega)]
    constructor
    · intro h; exact Or.inl ⟨p, rfl, h⟩
    · rintro (⟨q, hq, h⟩ | ⟨f, m, l, hq, _⟩)
      · simp at hq; subst hq; exact h
      · have := congrArg List.length hq; simp at this
  | p :: q :: rest =>
    simp only
    have hdec : q :: rest = (q :: rest).dropLast ++ [(q :: rest).getLast (by simp)] :=
      (List.dropLast_concat_getLast _).symm
    by_cases hfl : (p.isFirst && ((q :: rest).getLast (by simp)).isLast) = true
    · obtain ⟨r, hr, hiff⟩ := (C13_have_missing b g hv).2 (by rw [hps]; simp)
      rw [if_pos hfl, hr]
      refine ⟨!r, rfl, ?_⟩
      rw [Bool.and_eq_true] at hfl
      have hf := (flag _ 1 (by omega)).1 hfl.1
      have hl := (flag _ 2 (by omega)).1 hfl.2
      rw [hps] at hiff
      have : (!r) = true ↔ Consecutive (p :: q :: rest) := by
        cases r with
        | true => simp only [Bool.not_true, Bool.false_eq_true, false_iff]; exact hiff.1 rfl
        | false =>
          simp only [Bool.not_false, true_iff]
          exact Classical.not_not.1 (fun h => by simpa using hiff.2 h)
      rw [this]
      constructor
      · intro hc
        right
        exact ⟨p, (q :: rest).dropLast, (q :: rest).getLast (by simp), by rw [← hdec], hf, hl, hc⟩
      · rintro (⟨x, hx, _⟩ | ⟨f, m, l, _, _, _, hc⟩)
        · simp at hx
        · exact hc
    · rw [if_neg hfl]
      refine ⟨false, rfl, ?_⟩
      simp only [Bool.false_eq_true, false_iff]
      rintro (⟨x, hx, _⟩ | ⟨f, m, l, hx, h1, h2, _⟩)
      · simp at hx
      · apply hfl
        injection hx with hx1 hx2
        subst hx1
        rw [Bool.and_eq_true]
        refine ⟨(flag _ 1 (by omega)).2 h1, ?_⟩
        have : (q :: rest).getLast (by simp) = l := by
          simp only [hx2, List.getLast_concat]
        rw [this]
        exact (flag _ 2 (by omega)).2 h2

/-- A complete group across the id rollover, and one with a hole. -/
example : let mk (fl : U8) (n : U16) : Packet := ⟨⟨0, 0, true, 5, fl, n, 0⟩, [0, 0, 0, 0, 0, 0, 0], 0⟩
    PacketGroup.complete ⟨true⟩ ⟨5, [mk 1 16382, mk 0 16383, mk 2 0]⟩ = .ret true ∧
    PacketGroup.complete ⟨true⟩ ⟨5, [mk 1 16382, mk 2 0]⟩ = .ret false ∧
    ValidIds [mk 1 16382, mk 0 16383, mk 2 0] := by
  refine ⟨by decide +kernel, by decide +kernel, ?_⟩
  intro p hp; simp at hp; rcases hp with rfl | rfl | rfl <;> simp

end Ccsds
