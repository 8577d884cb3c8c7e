import Verif.Model.Python
import Verif.Props.Groups
import Verif.Props.Filter
/-!
# C70: the Python iterators
-/
namespace Ccsds
open Spec

namespace Py

variable {S : Type} {pull : S → Outcome (Option Packet × S) → Prop}

theorem filterOk_of_collects {S α ε : Type} {next : S → Outcome (Option (Except ε α) × S)} {s : S} {items : List (Except ε α)} {e : Option S}
    (h : Collects next s items e) : Loops (FilterOk next) s (oks items) e := by
  induction h with
  | done h => exact .done (.done h)
  | panicked h => exact .panicked (.panicked h)
  | @step s s' a as e h _ ih =>
    cases a with
    | ok a => exact .step (.item h) ih
    | error x =>
      show Loops (FilterOk next) s (oks as) e
      generalize oks as = l at ih
      cases ih with
      | done k => exact .done (.skip h k)
      | panicked k => exact .panicked (.skip h k)
      | step k l => exact .step (.skip h k) l

theorem filterOk_unique {S α ε : Type} {next : S → Outcome (Option (Except ε α) × S)} {s : S} {o o' : Outcome (Option α × S)}
    (h : FilterOk next s o) (k : FilterOk next s o') : o = o' := by
  induction h with
  | item h => cases k with
    | item k => rw [h] at k; cases k; rfl
    | skip k => rw [h] at k; cases k
    | done k => rw [h] at k; cases k
    | panicked k => rw [h] at k; cases k
  | skip h _ ih => cases k with
    | item k => rw [h] at k; cases k
    | skip k k' => rw [h] at k; cases k; exact ih k'
    | done k => rw [h] at k; cases k
    | panicked k => rw [h] at k; cases k
  | done h => cases k with
    | item k => rw [h] at k; cases k
    | skip k => rw [h] at k; cases k
    | done k => rw [h] at k; cases k; rfl
    | panicked k => rw [h] at k; cases k
  | panicked h => cases k with
    | item k => rw [h] at k; cases k
    | skip k => rw [h] at k; cases k
    | done k => rw [h] at k; cases k
    | panicked k => rfl

/-- A deterministic `next`. -/
def Det {S α : Type} (next : S → Outcome (Option α × S) → Prop) : Prop := ∀ s o o', next s o → next s o' → o = o'

theorem loops_unique {S α : Type} {next : S → Outcome (Option α × S) → Prop} (hd : Det next) {s : S} {as bs : List α} {e f : Option S}
    (h : Loops next s as e) (k : Loops next s bs f) : as = bs ∧ e = f := by
  induction h generalizing bs f with
  | done h => cases k with
    | done k => cases hd _ _ _ h k; exact ⟨rfl, rfl⟩
    | panicked k => cases hd _ _ _ h k
    | step k => cases hd _ _ _ h k
  | panicked h => cases k with
    | done k => cases hd _ _ _ h k
    | panicked k => exact ⟨rfl, rfl⟩
    | step k => cases hd _ _ _ h k
  | step h _ ih => cases k with
    | done k => cases hd _ _ _ h k
    | panicked k => cases hd _ _ _ h k
    | step k k' => cases hd _ _ _ h k; obtain ⟨rfl, rfl⟩ := ih k'; exact ⟨rfl, rfl⟩

theorem filterOk_det {S α ε : Type} {next : S → Outcome (Option (Except ε α) × S)} : Det (FilterOk next) := fun _ _ _ h k => filterOk_unique h k

theorem takes_det (hd : Det pull) (c : Option Packet) : Det (fun s o => takes pull s c o) := by
  intro s o o' h k
  cases c with
  | some p => exact h.trans k.symm
  | none => exact hd _ _ _ h k

theorem loop_det (hd : Det pull) {s : S} {c : Option Packet} {g : Option PacketGroup} {o o' : Outcome (Option PacketGroup × Groups S)}
    (h : Loop pull s c g o) (k : Loop pull s c g o') : o = o' := by
  have ht := takes_det hd
  induction h with
  | standalone h hs => cases k with
    | standalone k => cases ht _ _ _ _ h k; rfl
    | start k ks => cases ht _ _ _ _ h k; rw [hs] at ks; cases ks
    | ended k => cases ht _ _ _ _ h k
    | panicked k => cases ht _ _ _ _ h k
  | start h hs _ ih => cases k with
    | standalone k ks => cases ht _ _ _ _ h k; rw [hs] at ks; cases ks
    | start k _ k' => cases ht _ _ _ _ h k; exact ih k'
    | ended k => cases ht _ _ _ _ h k
    | panicked k => cases ht _ _ _ _ h k
  | other h hs => cases k with
    | other k => cases ht _ _ _ _ h k; rfl
    | push k ks => cases ht _ _ _ _ h k; exact absurd ks hs
    | endGroup k => cases ht _ _ _ _ h k
    | panicked k => cases ht _ _ _ _ h k
  | push h hs _ ih => cases k with
    | other k ks => cases ht _ _ _ _ h k; exact absurd hs ks
    | push k _ k' => cases ht _ _ _ _ h k; exact ih k'
    | endGroup k => cases ht _ _ _ _ h k
    | panicked k => cases ht _ _ _ _ h k
  | endGroup h => cases k with
    | other k => cases ht _ _ _ _ h k
    | push k => cases ht _ _ _ _ h k
    | endGroup k => cases ht _ _ _ _ h k; rfl
    | panicked k => cases ht _ _ _ _ h k
  | ended h => cases k with
    | standalone k => cases ht _ _ _ _ h k
    | start k => cases ht _ _ _ _ h k
    | ended k => cases ht _ _ _ _ h k; rfl
    | panicked k => cases ht _ _ _ _ h k
  | panicked h => cases k with
    | standalone k => cases ht _ _ _ _ h k
    | start k => cases ht _ _ _ _ h k
    | other k => cases ht _ _ _ _ h k
    | push k => cases ht _ _ _ _ h k
    | endGroup k => cases ht _ _ _ _ h k
    | ended k => cases ht _ _ _ _ h k
    | panicked k => rfl

theorem groupsNext_det (hd : Det pull) : Det (GroupsNext pull) := by
  intro s o o' h k
  cases h with
  | isDone h => cases k with
    | isDone => rfl
    | run k => rw [h] at k; cases k
  | run h h' => cases k with
    | isDone k => rw [h] at k; cases k
    | run _ k' => exact loop_det hd h' k'

/-- The packets still to come, given the cached one. -/
inductive Avail (pull : S → Outcome (Option Packet × S) → Prop) (e : Option S) : S → Option Packet → List Packet → Prop where
  | cached {s : S} {p : Packet} {ps : List Packet} : Loops pull s ps e → Avail pull e s (some p) (p :: ps)
  | none {s : S} {ps : List Packet} : Loops pull s ps e → Avail pull e s none ps

theorem avail_cons {e : Option S} {s : S} {c : Option Packet} {p : Packet} {ps : List Packet} (h : Avail pull e s c (p :: ps)) :
    ∃ s', takes pull s c (.ret (some p, s')) ∧ Loops pull s' ps e := by
  cases h with
  | cached h => exact ⟨s, rfl, h⟩
  | none h => cases h with | step h h' => exact ⟨_, h, h'⟩

/-- The lazy loop does what the loop over the list does. -/
theorem loop_sim (e : Option S) : ∀ (ps : List Packet) (s : S) (c : Option Packet) (g : Option PacketGroup), Avail pull e s c ps →
    match PacketGroupIter.loop ps g with
    | .inl (r, t) => ∃ s', Loop pull s c g (.ret (r, ⟨s', t.cached, t.done⟩)) ∧ Loops pull s' t.packets e ∧ t.done = false
    | .inr r => match e with
      | some s' => ∃ s'', Loop pull s c g (.ret (r, ⟨s'', none, r.isNone⟩)) ∧ s'' = s'
      | none => Loop pull s c g .panic := by
  intro ps
  induction ps with
  | nil =>
    intro s c g h
    cases h with
    | none h =>
      cases h with
      | done h =>
        cases g with
        | none => exact ⟨_, .ended h, rfl⟩
        | some g => exact ⟨_, .endGroup h, rfl⟩
      | panicked h => exact .panicked h
  | cons p ps ih =>
    intro s c g h
    obtain ⟨s', h1, h2⟩ := avail_cons h
    cases g with
    | none =>
      unfold PacketGroupIter.loop
      by_cases hs : p.isStandalone
      · rw [if_pos hs]
        exact ⟨s', .standalone h1 hs, h2, rfl⟩
      · rw [if_neg hs]
        have hs' : p.isStandalone = false := by simpa using hs
        have := ih s' none (some ⟨p.header.apid, [p]⟩) (.none h2)
        revert this
        cases PacketGroupIter.loop ps (some ⟨p.header.apid, [p]⟩) with
        | inl y =>
          obtain ⟨r, t⟩ := y
          rintro ⟨s'', a1, a2⟩
          exact ⟨s'', .start h1 hs' a1, a2⟩
        | inr r =>
          cases e with
          | none => intro a; exact .start h1 hs' a
          | some s0 => rintro ⟨s'', a1, a2⟩; exact ⟨s'', .start h1 hs' a1, a2⟩
    | some g =>
      unfold PacketGroupIter.loop
      by_cases hs : some p.header.apid ≠ g.packets.head?.map (·.header.apid)
      · rw [if_pos hs]
        exact ⟨s', .other h1 hs, h2, rfl⟩
      · rw [if_neg hs]
        have hs' := Decidable.not_not.1 hs
        have := ih s' none (some { g with packets := g.packets ++ [p] }) (.none h2)
        revert this
        cases PacketGroupIter.loop ps (some { g with packets := g.packets ++ [p] }) with
        | inl y =>
          obtain ⟨r, t⟩ := y
          rintro ⟨s'', a1, a2⟩
          exact ⟨s'', .push h1 hs' a1, a2⟩
        | inr r =>
          cases e with
          | none => intro a; exact .push h1 hs' a
          | some s0 => rintro ⟨s'', a1, a2⟩; exact ⟨s'', .push h1 hs' a1, a2⟩

theorem avail_of {e : Option S} {s : S} {c : Option Packet} {ps : List Packet} (h : Loops pull s ps e) : Avail pull e s c (c.toList ++ ps) := by
  cases c with
  | none => exact .none h
  | some p => exact .cached h

end Py

/-- Grouping the packets lazily is grouping the list of packets: if the packet iterator yields `ps` and ends, and says so again when asked again, then the
group iterator on it yields the groups of `ps`. -/
theorem C70_lazy {S : Type} (pull : S → Outcome (Option Packet × S) → Prop) (s s' s'' : S) (ps : List Packet) (h : Py.Loops pull s ps (some s'))
    (hf : pull s' (.ret (none, s''))) (gs : List PacketGroup) (t : PacketGroupIter)
    (hg : Collects PacketGroupIter.next (PacketGroupIter.new ps) (gs.map .ok) (some t)) :
    ∃ e, Py.Loops (Py.GroupsNext pull) ⟨s, none, false⟩ gs (some e) := by
  have key : ∀ (items : List (Except Error PacketGroup)) (l : PacketGroupIter) (f : Option PacketGroupIter), Collects PacketGroupIter.next l items f →
      f = some t → l.done = false → ∀ (s : S) (gs : List PacketGroup), items = gs.map .ok → Py.Loops pull s l.packets (some s') →
      ∃ e, Py.Loops (Py.GroupsNext pull) ⟨s, l.cached, false⟩ gs (some e) := by
    clear hg h
    intro items l f hc
    induction hc with
    | panicked => intro h; cases h
    | @done l l' hn =>
      intro _ hd s gs hgs hs
      have : gs = [] := by simpa using hgs.symm
      subst this
      have sim := Py.loop_sim (some s') _ s l.cached none (Py.avail_of hs)
      unfold PacketGroupIter.next at hn
      rw [hd] at hn
      simp only [Bool.false_eq_true, if_false] at hn
      cases hl : PacketGroupIter.loop (l.cached.toList ++ l.packets) none with
      | inl y =>
        obtain ⟨r, t'⟩ := y
        rw [hl] at hn sim
        cases r with
        | some g => cases hn
        | none => obtain ⟨s1, a1, _⟩ := sim; exact ⟨_, .done (.run rfl a1)⟩
      | inr r =>
        rw [hl] at hn sim
        cases r with
        | some g => cases hn
        | none => obtain ⟨s1, a1, _⟩ := sim; exact ⟨_, .done (.run rfl a1)⟩
    | @step l l' a as f hn hc ih =>
      intro hf' hd s gs hgs hs
      cases gs with
      | nil => cases hgs
      | cons g gs =>
        simp only [List.map_cons, List.cons.injEq] at hgs
        obtain ⟨rfl, hgs⟩ := hgs
        have sim := Py.loop_sim (some s') _ s l.cached none (Py.avail_of hs)
        unfold PacketGroupIter.next at hn
        rw [hd] at hn
        simp only [Bool.false_eq_true, if_false] at hn
        cases hl : PacketGroupIter.loop (l.cached.toList ++ l.packets) none with
        | inl y =>
          obtain ⟨r, t'⟩ := y
          rw [hl] at hn sim
          cases r with
          | none => cases hn
          | some g' =>
            cases hn
            obtain ⟨s1, a1, a2, a3⟩ := sim
            obtain ⟨e, he⟩ := ih hf' a3 s1 gs hgs a2
            rw [a3] at a1
            exact ⟨e, .step (.run rfl a1) he⟩
        | inr r =>
          rw [hl] at hn sim
          cases r with
          | none => cases hn
          | some g' =>
            cases hn
            obtain ⟨s1, a1, rfl⟩ := sim
            obtain ⟨e, he⟩ : ∃ e, Py.Loops (Py.GroupsNext pull) ⟨s1, none, false⟩ gs (some e) := by
              cases hc with
              | done k =>
                have : gs = [] := by simpa using hgs.symm
                subst this
                exact ⟨_, .done (.run rfl (.ended hf))⟩
              | panicked k => cases hf'
              | step k _ => cases k
            exact ⟨e, .step (.run rfl a1) he⟩
  exact key _ _ _ hg rfl rfl s gs rfl h

theorem loop_inr_head (ps : List Packet) : ∀ (g g' : PacketGroup) (p : Packet), g.packets.head? = some p →
    PacketGroupIter.loop ps (some g) = .inr (some g') → g'.packets.head? = some p := by
  induction ps with
  | nil => intro g g' p hp h; simp only [PacketGroupIter.loop, Sum.inr.injEq, Option.some.injEq] at h; rw [← h]; exact hp
  | cons q ps ih =>
    intro g g' p hp h
    unfold PacketGroupIter.loop at h
    split at h
    · cases h
    · refine ih _ g' p ?_ h
      rw [List.head?_append, hp]; rfl

theorem loop_none_inr_head {ps : List Packet} {g : PacketGroup} (h : PacketGroupIter.loop ps none = .inr (some g)) :
    (g.packets.head?.map Packet.isStandalone).getD false = false := by
  cases ps with
  | nil => cases h
  | cons p ps =>
    unfold PacketGroupIter.loop at h
    split at h
    · cases h
    · rename_i hs
      rw [loop_inr_head ps _ g p rfl h]
      simpa using hs

theorem loop_none_inl_last {ps : List Packet} {g : PacketGroup} {t : PacketGroupIter} (h : PacketGroupIter.loop ps none = .inl (some g, t))
    (he : t.cached.toList ++ t.packets = []) : (g.packets.head?.map Packet.isStandalone).getD false = true := by
  cases ps with
  | nil => cases h
  | cons p ps =>
    unfold PacketGroupIter.loop at h
    split at h
    · rename_i hs
      cases h
      simpa using hs
    · exfalso
      generalize (⟨p.header.apid, [p]⟩ : PacketGroup) = g0 at h
      induction ps generalizing g0 with
      | nil => cases h
      | cons q ps ih =>
        unfold PacketGroupIter.loop at h
        split at h
        · cases h
          simp at he
        · exact ih _ h

theorem loop_inl_some (ps : List Packet) : ∀ (g : Option PacketGroup) (r : Option PacketGroup) (t : PacketGroupIter), PacketGroupIter.loop ps g = .inl (r, t) →
    r ≠ none := by
  induction ps with
  | nil => intro g r t h; cases h
  | cons p ps ih =>
    intro g r t h
    cases g <;> unfold PacketGroupIter.loop at h <;> split at h
    · cases h; simp
    · exact ih _ _ _ h
    · cases h; simp
    · exact ih _ _ _ h

/-- If the packet iterator panics after `ps`, the group iterator yields the groups of `ps` and panics, except that a group that could still go on is lost. -/
theorem C70_lazy_panic {S : Type} (pull : S → Outcome (Option Packet × S) → Prop) (s : S) (ps : List Packet) (h : Py.Loops pull s ps none)
    (gs : List PacketGroup) (t : PacketGroupIter) (hg : Collects PacketGroupIter.next (PacketGroupIter.new ps) (gs.map .ok) (some t)) :
    Py.Loops (Py.GroupsNext pull) ⟨s, none, false⟩ (Filter.beforePanic gs) none := by
  have key : ∀ (items : List (Except Error PacketGroup)) (l : PacketGroupIter) (f : Option PacketGroupIter), Collects PacketGroupIter.next l items f →
      f = some t → l.done = false → ∀ (s : S) (gs : List PacketGroup), items = gs.map .ok → Py.Loops pull s l.packets none →
      Py.Loops (Py.GroupsNext pull) ⟨s, l.cached, false⟩ (Filter.beforePanic gs) none := by
    clear hg h
    intro items l f hc
    induction hc with
    | panicked => intro h; cases h
    | @done l l' hn =>
      intro _ hd s gs hgs hs
      have : gs = [] := by simpa using hgs.symm
      subst this
      have sim := Py.loop_sim none _ s l.cached none (Py.avail_of hs)
      unfold PacketGroupIter.next at hn
      rw [hd] at hn
      simp only [Bool.false_eq_true, if_false] at hn
      cases hl : PacketGroupIter.loop (l.cached.toList ++ l.packets) none with
      | inl y =>
        obtain ⟨r, t'⟩ := y
        rw [hl] at hn sim
        cases r with
        | some g => cases hn
        | none => exact absurd rfl (loop_inl_some _ _ _ _ hl)
      | inr r =>
        rw [hl] at hn sim
        exact .panicked (.run rfl sim)
    | @step l l' a as f hn hc ih =>
      intro hf' hd s gs hgs hs
      cases gs with
      | nil => cases hgs
      | cons g gs =>
        simp only [List.map_cons, List.cons.injEq] at hgs
        obtain ⟨rfl, hgs⟩ := hgs
        have sim := Py.loop_sim none _ s l.cached none (Py.avail_of hs)
        unfold PacketGroupIter.next at hn
        rw [hd] at hn
        simp only [Bool.false_eq_true, if_false] at hn
        cases hl : PacketGroupIter.loop (l.cached.toList ++ l.packets) none with
        | inl y =>
          obtain ⟨r, t'⟩ := y
          rw [hl] at hn sim
          cases r with
          | none => cases hn
          | some g' =>
            cases hn
            obtain ⟨s1, a1, a2, a3⟩ := sim
            have he := ih hf' a3 s1 gs hgs a2
            rw [a3] at a1
            have hb : Filter.beforePanic (g :: gs) = g :: Filter.beforePanic gs := by
              cases gs with
              | cons x xs =>
                unfold Filter.beforePanic
                rw [List.getLast?_cons_cons]
                cases hx : (x :: xs).getLast? with
                | none => simp at hx
                | some y => simp only; split <;> simp
              | nil =>
                subst hgs
                have hd1 : l'.cached.toList ++ l'.packets = [] := by
                  cases hc with
                  | panicked k => cases hf'
                  | done k =>
                    cases hw : l'.cached.toList ++ l'.packets with
                    | nil => rfl
                    | cons w ws =>
                      obtain ⟨s2, k2, _⟩ := PacketGroupIter.next_cons l' a3 w ws hw
                      rw [k2] at k; cases k
                have := loop_none_inl_last hl hd1
                unfold Filter.beforePanic
                simp [this]
            rw [hb]
            exact .step (.run rfl a1) he
        | inr r =>
          rw [hl] at hn sim
          cases r with
          | none => cases hn
          | some g' =>
            cases hn
            have : gs = [] := by
              cases hc with
              | done k => simpa using hgs.symm
              | panicked k => cases hf'
              | step k _ => cases k
            subst this
            have hh := loop_none_inr_head hl
            have hb : Filter.beforePanic [g] = [] := by
              unfold Filter.beforePanic
              simp [hh]
            rw [hb]
            exact .panicked (.run rfl sim)
  exact key _ _ _ hg rfl rfl s gs rfl h

/-! ## C70  What a Python program sees of a file -/

/-- At the end of the file the packet iterator says so again when asked again. -/
theorem end_again {l : PacketDecoder} {items : List (Except Error Packet)} {e : Option PacketDecoder} (h : Collects PacketDecoder.next l items e) :
    ∀ (bs : List U8) (s : PacketDecoder), l.reader.Delivers bs → e = some s → PacketDecoder.next s = .ret (none, s) := by
  have hlast : ∀ o, PacketDecoder.next ⟨⟨[], .eof⟩, o⟩ = .ret (none, ⟨⟨[], .eof⟩, o⟩) := fun o =>
    next_none (bs := []) ⟨by simp, rfl, rfl⟩ o (by have := packetLen_ge []; simp; omega) (by simp)
  induction h with
  | panicked => intro _ _ _ h; cases h
  | @done l l' h =>
    intro bs s hd he
    cases he
    obtain ⟨r, o⟩ := l
    by_cases h6 : 6 ≤ bs.length ∧ 65536 < packetLen bs
    · rw [next_panic hd o h6.1 h6.2] at h; cases h
    · by_cases hl : packetLen bs ≤ bs.length
      · have := packetLen_ge bs
        obtain ⟨_, _, _, _, hn⟩ := next_complete hd o hl (by omega)
        rw [hn] at h; cases h
      · rw [next_none hd o (by omega) (by omega)] at h
        cases h
        exact hlast o
  | @step l l' a as e h _ ih =>
    intro bs s hd he
    obtain ⟨r, o⟩ := l
    by_cases h6 : 6 ≤ bs.length ∧ 65536 < packetLen bs
    · rw [next_panic hd o h6.1 h6.2] at h; cases h
    · by_cases hl : packetLen bs ≤ bs.length
      · have := packetLen_ge bs
        obtain ⟨_, r', _, hd', hn⟩ := next_complete hd o hl (by omega)
        rw [hn] at h
        cases h
        exact ih _ s hd' he
      · rw [next_none hd o (by omega) (by omega)] at h; cases h

theorem oks_ok {α : Type} (l : List α) : oks (l.map (Except.ok (ε := Error))) = l := by
  induction l with
  | nil => rfl
  | cons a l ih => exact congrArg (a :: ·) ih

/-- `ccsds.decode_packets(path)` yields the packets of the file one after the other, unchanged, with their positions, and then stops; it raises a panic iff it
comes to a packet of more than 65536 bytes (C03). -/
theorem C70_packets (bs : List U8) (r : Reader) (hd : r.Delivers bs) :
    ∃ ps rest stops, Py.DecodePackets r ps stops ∧ bs = wire ps ++ rest ∧ (∀ p ∈ ps, p.WellFormed) ∧ OffsetsOk ps ∧
      (stops = false → 6 ≤ rest.length ∧ 65536 < packetLen rest) ∧ (stops = true → rest.length < packetLen rest) := by
  obtain ⟨ps, rest, e, h1, h2, h3, h4, h5, h6⟩ := C04_cut bs r hd
  have := Py.filterOk_of_collects h1
  rw [oks_ok] at this
  refine ⟨ps, rest, e.isSome, ⟨e, this, rfl⟩, h2, h3, h4, fun h => h5 (by simpa using h), fun h => h6 ?_⟩
  intro hn; rw [hn] at h; cases h

/-- Its result is unique. -/
theorem C70_packets_unique (r : Reader) (ps qs : List Packet) (b b' : Bool) (h : Py.DecodePackets r ps b) (k : Py.DecodePackets r qs b') :
    ps = qs ∧ b = b' := by
  obtain ⟨e, h, rfl⟩ := h
  obtain ⟨f, k, rfl⟩ := k
  obtain ⟨rfl, rfl⟩ := Py.loops_unique Py.filterOk_det h k
  exact ⟨rfl, rfl⟩

theorem C70_groups_unique (r : Reader) (gs gs' : List PacketGroup) (b b' : Bool) (h : Py.DecodePacketGroups r gs b) (k : Py.DecodePacketGroups r gs' b') :
    gs = gs' ∧ b = b' := by
  obtain ⟨e, h, rfl⟩ := h
  obtain ⟨f, k, rfl⟩ := k
  obtain ⟨rfl, rfl⟩ := Py.loops_unique (Py.groupsNext_det Py.filterOk_det) h k
  exact ⟨rfl, rfl⟩

/-- `ccsds.decode_packet_groups(path)` and `ccsds.decode_packets(path)` on the same file: the packets of the groups, in order, are the packets, none missing and
none twice; every group is non-empty and of one APID; they stop both or panic both, and in the latter case at most the packets of one group are not
delivered. -/
theorem C70_groups (bs : List U8) (r r' : Reader) (hd : r.Delivers bs) (hd' : r'.Delivers bs) (ps : List Packet) (stops : Bool)
    (h : Py.DecodePackets r ps stops) :
    ∃ gs, Py.DecodePacketGroups r' gs stops ∧ (∀ g ∈ gs, g.packets ≠ [] ∧ ∀ p ∈ g.packets, p.header.apid = g.apid) ∧
      (stops = true → gs.flatMap PacketGroup.packets = ps) ∧
      (stops = false → gs.flatMap PacketGroup.packets = ps ∨
        ∃ g : PacketGroup, g.packets ≠ [] ∧ (∀ p ∈ g.packets, p.header.apid = g.apid) ∧ gs.flatMap PacketGroup.packets ++ g.packets = ps) := by
  obtain ⟨ps1, rest, e1, c1, _⟩ := C04_cut bs r hd
  obtain ⟨e, c2, hee⟩ := C06_chunking bs r r' hd hd' _ _ c1
  have d1 := Py.filterOk_of_collects c1
  have d2 := Py.filterOk_of_collects c2
  rw [oks_ok] at d1 d2
  obtain ⟨rfl, rfl⟩ := C70_packets_unique r ps ps1 stops e1.isSome h ⟨e1, d1, rfl⟩
  obtain ⟨gs, t, g1, g2, g3⟩ := C11_partition ps
  cases e with
  | some s =>
    have hn : e1 ≠ none := fun h => by cases hee.1 h
    have hs : e1.isSome = true := Option.isSome_iff_ne_none.2 hn
    obtain ⟨f, hf⟩ := C70_lazy _ _ s s ps d2 (.done (end_again c2 bs s hd' rfl)) gs t g1
    exact ⟨gs, ⟨some f, hf, hs⟩, g3, fun _ => g2, fun h => by rw [hs] at h; cases h⟩
  | none =>
    have hs : e1 = none := hee.2 rfl
    subst hs
    have hf := C70_lazy_panic _ _ ps d2 gs t g1
    refine ⟨_, ⟨none, hf, rfl⟩, ?_, (by intro h; cases h), fun _ => ?_⟩
    · intro g hg
      refine g3 g ?_
      unfold Filter.beforePanic at hg
      split at hg
      · split at hg
        · exact hg
        · exact List.dropLast_subset _ hg
      · cases hg
    · unfold Filter.beforePanic
      cases hl : gs.getLast? with
      | none =>
        have : gs = [] := by simpa using hl
        subst this
        exact .inl g2
      | some g =>
        simp only
        split
        · exact .inl g2
        · refine .inr ⟨g, (g3 g (List.mem_of_getLast? hl)).1, (g3 g (List.mem_of_getLast? hl)).2, ?_⟩
          have hne : gs ≠ [] := by rintro rfl; cases hl
          have h1 := List.dropLast_concat_getLast hne
          rw [List.getLast?_eq_some_getLast hne] at hl
          cases hl
          rw [← g2]
          conv => rhs; rw [← h1]
          simp

/-- For a file of segmented and unsegmented packets as a sender writes them, where a segmented group is never directly followed by another group of the same
APID (C12), followed by less than a packet, the Python groups are the groups of the sender. -/
theorem C70_groups_sender (gs : List (List Packet)) (hs : ∀ g ∈ gs, SenderGroup g) (ha : ApidChanges gs)
    (hw : ∀ p ∈ gs.flatten, p.WellFormed ∧ p.data.length ≤ 65536) (ho : OffsetsOk gs.flatten) (rest : List U8)
    (hrest : rest.length < packetLen rest) (hmax : 6 ≤ rest.length → packetLen rest ≤ 65536) (r : Reader) (hd : r.Delivers (wire gs.flatten ++ rest)) :
    ∃ out, Py.DecodePacketGroups r out true ∧ out.map PacketGroup.packets = gs := by
  obtain ⟨qs, s, c1, c2, c3⟩ := C05_roundtrip gs.flatten rest r hw hrest hmax hd
  have hq : qs = gs.flatten := by
    generalize gs.flatten = ps at *
    have hlen : qs.length = ps.length := by simpa using congrArg List.length c2
    apply List.ext_getElem hlen
    intro i h1 h2
    have e := congrArg (fun l => l[i]?) c2
    simp only [List.getElem?_map, List.getElem?_eq_getElem h1, List.getElem?_eq_getElem h2, Option.map_some, Option.some.injEq, Prod.mk.injEq] at e
    have w : (qs.take i).flatMap Packet.data = (ps.take i).flatMap Packet.data := by
      have := congrArg (fun l => (l.take i).flatMap Prod.snd) c2
      simpa [← List.map_take, List.flatMap_map] using this
    have o1 := c3 (qs.take i) qs[i] (qs.drop (i + 1)) (by simp)
    have o2 := ho (ps.take i) ps[i] (ps.drop (i + 1)) (by simp)
    cases hx : qs[i] with
    | mk a1 a2 a3 =>
      cases hy : ps[i] with
      | mk b1 b2 b3 =>
        rw [hx, hy] at e
        rw [hx] at o1
        rw [hy] at o2
        simp only at e o1 o2
        unfold wire at o1 o2
        rw [w] at o1
        rw [e.1, e.2, o1, o2]
  subst hq
  obtain ⟨out, t, g1, g2⟩ := C12_partial gs hs ha
  have d := Py.filterOk_of_collects c1
  rw [oks_ok] at d
  obtain ⟨f, hf⟩ := C70_lazy _ _ s s _ d (.done (end_again c1 _ s hd rfl)) out t g1
  exact ⟨out, ⟨some f, hf, rfl⟩, g2⟩

/-- `ccsds.Packet(buf)` raises `ValueError` iff `buf` is shorter than the packet it announces; else `data` is that packet and `user_data` what follows the
six header bytes. -/
theorem C70_packet (buf : List U8) :
    (Py.packetNew buf = none ↔ buf.length < packetLen buf) ∧
    ∀ p, Py.packetNew buf = some p → p.data = buf.take (packetLen buf) ∧ Py.userData p = .ret ((buf.take (packetLen buf)).drop 6) := by
  have ⟨h1, h2, h3⟩ := C02_decode buf
  have hp := packetLen_ge buf
  unfold Py.packetNew
  by_cases hl : buf.length < 6
  · rw [h1 hl]
    exact ⟨by simp; omega, by simp⟩
  · by_cases hs : buf.length < packetLen buf
    · rw [h2 (by omega) hs]
      exact ⟨by simp; omega, by simp⟩
    · obtain ⟨h, _, e⟩ := h3 (by omega) (by omega)
      rw [e]
      refine ⟨by simp; omega, ?_⟩
      intro p hp'
      cases hp'
      refine ⟨rfl, ?_⟩
      unfold Py.userData
      rw [if_neg (by simp [PrimaryHeader.LEN]; omega)]
      rfl

/-- Two unsegmented packets of APID 5 and the beginning of a third, read in two chunks: two groups. -/
example : ∃ gs, Py.DecodePacketGroups ⟨[.data [0, 5, 0xc0, 7], .err .interrupted, .data [0, 0, 0xab, 0, 5, 0xc0, 8, 0, 0, 0xcd, 0, 5]], .eof⟩ gs true ∧ gs.length = 2 := by
  have hd : Reader.Delivers ⟨[.data [0, 5, 0xc0, 7], .err .interrupted, .data [0, 0, 0xab, 0, 5, 0xc0, 8, 0, 0, 0xcd, 0, 5]], .eof⟩
      [0, 5, 0xc0, 7, 0, 0, 0xab, 0, 5, 0xc0, 8, 0, 0, 0xcd, 0, 5] := ⟨by simp [Ev.Good], rfl, rfl⟩
  obtain ⟨out, h1, h2⟩ := C70_groups_sender [[⟨⟨0, 0, false, 5, 3, 7, 0⟩, [0, 5, 0xc0, 7, 0, 0, 0xab], 0⟩], [⟨⟨0, 0, false, 5, 3, 8, 0⟩, [0, 5, 0xc0, 8, 0, 0, 0xcd], 7⟩]]
    (by intro g hg; simp at hg; rcases hg with rfl | rfl <;> exact .single _ rfl) ⟨by simp, trivial⟩
    (by
      intro p hp
      simp at hp
      rcases hp with rfl | rfl <;> unfold Packet.WellFormed <;> decide +kernel)
    (by
      intro pre p post h
      simp at h
      rcases pre with _ | ⟨a, _ | ⟨b, pre⟩⟩
      · simp at h; rw [← h.1]; rfl
      · simp at h; rw [← h.1, ← h.2.1]; rfl
      · simp at h)
    [0, 5] (by decide +kernel) (by simp) _ hd
  exact ⟨out, h1, by simpa using congrArg List.length h2⟩

end Ccsds
