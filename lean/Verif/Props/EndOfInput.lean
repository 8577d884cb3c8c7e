import Verif.Model.LazyGroups
import Verif.Props.Crash
import Verif.Props.Chunks
/-!
# C102: the end of the input is final
-/
namespace Ccsds
open Spec

/-- The input does not go on after its end: no read reports the end (`Ok(0)`, or the error `UnexpectedEof`) before the last one. -/
def Spec.EndsOnce (r : Reader) : Prop := ∀ e ∈ r.script, e ≠ .data [] ∧ e ≠ .err .unexpectedEof

namespace Lazy

theorem readExactGo_ends (t : Tail) : ∀ (evs : List Ev) (n : Nat) (acc : List U8) (k : Option IoKind) (got : List U8) (rest : List Ev),
    (∀ e ∈ evs, e ≠ .data [] ∧ e ≠ .err .unexpectedEof) → Reader.readExactGo t evs n acc = (k, got, rest) →
    (∀ e ∈ rest, e ≠ .data [] ∧ e ≠ .err .unexpectedEof) ∧ (k = some .unexpectedEof → rest = [] ∧ t = .eof) := by
  intro evs n acc
  fun_induction Reader.readExactGo t evs n acc with
  | case1 script acc => intro k got rest h e; cases e; exact ⟨h, by simp⟩
  | case2 n acc heq => intro k got rest h e; cases e; exact ⟨by simp, fun _ => ⟨rfl, heq⟩⟩
  | case3 n acc c heq => intro k got rest h e; cases e; exact ⟨by simp, by simp⟩
  | case4 rest0 n acc ih => intro k got rest h e; exact ih k got rest (fun e he => h e (by simp [he])) e
  | case5 k0 rest0 n acc hk =>
    intro k got rest h e
    cases e
    refine ⟨fun e he => h e (by simp [he]), fun hk' => ?_⟩
    cases hk'
    exact absurd rfl (h _ (by simp)).2
  | case6 rest0 n acc => intro k got rest h e; exact absurd rfl (h (.data []) (by simp)).1
  | case7 rest0 n acc bs hne hle ih => intro k got rest h e; exact ih k got rest (fun e he => h e (by simp [he])) e
  | case8 rest0 n acc bs hne hle =>
    intro k got rest h e
    cases e
    refine ⟨fun e he => ?_, by simp⟩
    rcases List.mem_cons.1 he with rfl | he
    · refine ⟨fun h => ?_, by simp⟩
      simp only [Ev.data.injEq] at h
      have := congrArg List.length h
      simp only [List.length_drop, List.length_nil] at this
      omega
    · exact h e (by simp [he])

theorem readExact_ends {r r' : Reader} {n : Nat} {k : Option IoKind} {got : List U8} (h : EndsOnce r) (e : r.readExact n = (k, got, r')) :
    EndsOnce r' ∧ r'.tail = r.tail ∧ (k = some .unexpectedEof → r'.script = [] ∧ r'.tail = .eof) := by
  unfold Reader.readExact at e
  rcases hg : Reader.readExactGo r.tail r.script n [] with ⟨k0, g0, rest⟩
  rw [hg] at e
  cases e
  obtain ⟨a, b⟩ := readExactGo_ends _ _ _ _ _ _ _ h hg
  exact ⟨a, rfl, b⟩

theorem next_ends {s s' : PacketDecoder} {o : Option (Except Error Packet)} (h : EndsOnce s.reader) (e : PacketDecoder.next s = .ret (o, s')) :
    EndsOnce s'.reader ∧ (o = none → PacketDecoder.next s' = .ret (none, s')) := by
  have atEnd : ∀ (r : Reader) (off : Nat), r.script = [] → r.tail = .eof → PacketDecoder.next ⟨r, off⟩ = .ret (none, ⟨r, off⟩) := by
    intro r off h1 h2
    obtain ⟨sc, t⟩ := r
    cases h1
    cases h2
    rfl
  unfold PacketDecoder.next Packet.read at e
  rcases h1 : s.reader.readExact PrimaryHeader.LEN with ⟨k, hdr, r1⟩
  obtain ⟨a1, a2, a3⟩ := readExact_ends h h1
  rw [h1] at e
  cases k with
  | some k =>
    simp only at e
    split at e
    · rename_i hk
      cases e
      simp only [Error.io.injEq] at hk
      exact ⟨a1, fun _ => atEnd _ _ (a3 (by rw [hk])).1 (a3 (by rw [hk])).2⟩
    · cases e; exact ⟨a1, fun h => (by cases h)⟩
  | none =>
    simp only at e
    cases hd : PrimaryHeader.decode hdr with
    | error er =>
      rw [hd] at e
      simp only at e
      have : er ≠ .io .unexpectedEof := by
        intro h
        subst h
        unfold PrimaryHeader.decode at hd
        split at hd <;> cases hd
      rw [if_neg this] at e
      cases e
      exact ⟨a1, fun h => (by cases h)⟩
    | ok ph =>
      rw [hd] at e
      simp only at e
      by_cases hl : PrimaryHeader.LEN + (ph.lenMinus1.toNat + 1) ≤ Packet.MAX_LEN
      · rw [if_pos hl] at e
        rcases h2 : r1.readExact (PrimaryHeader.LEN + (ph.lenMinus1.toNat + 1) - PrimaryHeader.LEN) with ⟨k2, body, r2⟩
        obtain ⟨b1, b2, b3⟩ := readExact_ends a1 h2
        rw [h2] at e
        cases k2 with
        | some k =>
          simp only at e
          split at e
          · rename_i hk
            cases e
            simp only [Error.io.injEq] at hk
            exact ⟨b1, fun _ => atEnd _ _ (b3 (by rw [hk])).1 (b3 (by rw [hk])).2⟩
          · cases e; exact ⟨b1, fun h => (by cases h)⟩
        | none => cases e; exact ⟨b1, fun h => (by cases h)⟩
      · rw [if_neg hl] at e; cases e

/-! ## Both descriptions are deterministic -/

theorem Pull.unique {s : PacketDecoder} {o o' : Outcome (Option Packet × PacketDecoder)} (h : Pull s o) (h' : Pull s o') : o = o' := by
  induction h with
  | ended h => cases h' <;> simp_all
  | panicked h => cases h' <;> simp_all
  | packet h => cases h' <;> simp_all
  | skip h _ ih =>
    cases h' with
    | ended k => simp_all
    | panicked k => simp_all
    | packet k => simp_all
    | skip k k2 => rw [h] at k; cases k; exact ih k2

theorem Loop.unique {s : PacketDecoder} {c : Option Packet} {g : Option PacketGroup} {e e' : LoopEnd} (h : Loop s c g e) (h' : Loop s c g e') : e = e' := by
  induction h with
  | broke h =>
    cases h' with
    | broke k => cases h.unique k; rfl
    | panicked k => cases h.unique k
    | pulled k => cases h.unique k
  | panicked h =>
    cases h' with
    | broke k => cases h.unique k
    | panicked k => rfl
    | pulled k => cases h.unique k
  | pulled h _ ih =>
    cases h' with
    | broke k => cases h.unique k
    | panicked k => cases h.unique k
    | pulled k k2 => cases h.unique k; exact ih k2
  | standalone h => cases h' <;> simp_all
  | first h _ ih =>
    cases h' with
    | standalone k => simp_all
    | first k k2 => exact ih k2
  | other h => cases h' <;> simp_all
  | push h _ ih =>
    cases h' with
    | other k => simp_all
    | push k k2 => exact ih k2

theorem Next.unique {s : Iter} {o o' : Outcome (Option PacketGroup × Iter)} (h : Next s o) (h' : Next s o') : o = o' := by
  cases h with
  | finished h => cases h' <;> simp_all
  | returned h l =>
    cases h' with
    | finished k => simp_all
    | returned k l' => cases l.unique l'; rfl
    | last k l' => cases l.unique l'
    | ended k l' => cases l.unique l'
    | panicked k l' => cases l.unique l'
  | last h l =>
    cases h' with
    | finished k => simp_all
    | returned k l' => cases l.unique l'
    | last k l' => cases l.unique l'; rfl
    | ended k l' => cases l.unique l'
    | panicked k l' => cases l.unique l'
  | ended h l =>
    cases h' with
    | finished k => simp_all
    | returned k l' => cases l.unique l'
    | last k l' => cases l.unique l'
    | ended k l' => cases l.unique l'; rfl
    | panicked k l' => cases l.unique l'
  | panicked h l =>
    cases h' with
    | finished k => simp_all
    | returned k l' => cases l.unique l'
    | last k l' => cases l.unique l'
    | ended k l' => cases l.unique l'
    | panicked k l' => rfl

theorem Groups.unique {s : Iter} {gs gs' : List PacketGroup} {e e' : Bool} (h : Groups s gs e) (h' : Groups s gs' e') : gs = gs' ∧ e = e' := by
  induction h generalizing gs' e' with
  | done h =>
    cases h' with
    | done k => simp
    | panicked k => cases h.unique k
    | step k => cases h.unique k
  | panicked h =>
    cases h' with
    | done k => cases h.unique k
    | panicked k => simp
    | step k => cases h.unique k
  | step h _ ih =>
    cases h' with
    | done k => cases h.unique k
    | panicked k => cases h.unique k
    | step k k2 =>
      cases h.unique k
      obtain ⟨rfl, rfl⟩ := ih k2
      simp

/-! ## The groups of an input, in terms of its packets up to the first end -/

/-- From `s` on, the packets `ps` are read, and then the input ends for the first time (leaving the decoder `e0`), or the decoder panics. -/
def Src (s : PacketDecoder) (ps : List Packet) (e0 : Option PacketDecoder) : Prop := ∃ items, Collects PacketDecoder.next s items e0 ∧ oks items = ps

theorem Src.cons {s : PacketDecoder} {p : Packet} {ps : List Packet} {e0 : Option PacketDecoder} (h : Src s (p :: ps) e0) :
    ∃ s', Pull s (.ret (some p, s')) ∧ Src s' ps e0 := by
  obtain ⟨items, h2, h3⟩ := h
  induction h2 with
  | done => cases h3
  | panicked => cases h3
  | @step s s' a as e k1 k2 ih =>
    cases a with
    | ok q =>
      have h3 : q :: oks as = p :: ps := h3
      cases h3
      exact ⟨s', .packet k1, as, k2, rfl⟩
    | error er =>
      obtain ⟨t, i1, i2⟩ := ih h3
      exact ⟨t, .skip k1 i1, i2⟩

theorem Src.nil {s t : PacketDecoder} (h : Src s [] (some t)) : Pull s (.ret (none, t)) := by
  obtain ⟨items, h2, h3⟩ := h
  generalize he : some t = e at h2
  induction h2 with
  | @done s s' k => cases he; exact .ended k
  | panicked => cases he
  | @step s s' a as e k1 k2 ih =>
    cases a with
    | ok q => cases h3
    | error er => exact .skip k1 (ih h3 he)

theorem Src.dead {s : PacketDecoder} (h : Src s [] none) : Pull s .panic := by
  obtain ⟨items, h2, h3⟩ := h
  generalize he : none = e at h2
  induction h2 with
  | done => cases he
  | panicked k => exact .panicked k
  | @step s s' a as e k1 k2 ih =>
    cases a with
    | ok q => cases h3
    | error er => exact .skip k1 (ih h3 he)

/-- The loop over a list of packets and the loop over the input. -/
def Agrees (s : PacketDecoder) (c : Option Packet) (g : Option PacketGroup) (l : List Packet) (e0 : Option PacketDecoder) : Prop :=
  (∀ o it, PacketGroupIter.loop l g = .inl (o, it) →
    ∃ g' s', o = some g' ∧ it.done = false ∧ Loop s c g (.returned g' ⟨s', it.cached, false⟩) ∧ Src s' it.packets e0) ∧
  (∀ g', PacketGroupIter.loop l g = .inr g' →
    (∀ t, e0 = some t → Loop s c g (.broke g' ⟨t, none, false⟩)) ∧ (e0 = none → Loop s c g .panicked))

theorem loop_cached {s : PacketDecoder} {p : Packet} {ps : List Packet} {e0 : Option PacketDecoder} (h : Src s ps e0) (ih : ∀ g, Agrees s none g ps e0) (g : Option PacketGroup) :
    Agrees s (some p) g (p :: ps) e0 := by
  cases g with
  | none =>
    cases hs : p.isStandalone with
    | true =>
      refine ⟨fun o it e => ?_, fun g' e => ?_⟩
      · unfold PacketGroupIter.loop at e
        rw [hs] at e
        cases e
        exact ⟨_, s, rfl, rfl, .standalone hs, h⟩
      · unfold PacketGroupIter.loop at e
        rw [hs] at e
        cases e
    | false =>
      have hl : PacketGroupIter.loop (p :: ps) none = PacketGroupIter.loop ps (some ⟨p.header.apid, [p]⟩) := by
        rw [PacketGroupIter.loop, hs]; rfl
      unfold Agrees
      rw [hl]
      obtain ⟨i1, i2⟩ := ih (some ⟨p.header.apid, [p]⟩)
      refine ⟨fun o it e => ?_, fun g' e => ⟨fun t he => ?_, fun he => ?_⟩⟩
      · obtain ⟨g', s', a1, a2, a3, a4⟩ := i1 o it e
        exact ⟨g', s', a1, a2, .first hs a3, a4⟩
      · exact .first hs ((i2 g' e).1 t he)
      · exact .first hs ((i2 g' e).2 he)
  | some g0 =>
    by_cases ha : some p.header.apid = g0.packets.head?.map (·.header.apid)
    · have hl : PacketGroupIter.loop (p :: ps) (some g0) = PacketGroupIter.loop ps (some { g0 with packets := g0.packets ++ [p] }) := by
        rw [PacketGroupIter.loop, if_neg (by simpa using ha)]
      unfold Agrees
      rw [hl]
      obtain ⟨i1, i2⟩ := ih (some { g0 with packets := g0.packets ++ [p] })
      refine ⟨fun o it e => ?_, fun g' e => ⟨fun t he => ?_, fun he => ?_⟩⟩
      · obtain ⟨g', s', a1, a2, a3, a4⟩ := i1 o it e
        exact ⟨g', s', a1, a2, .push ha a3, a4⟩
      · exact .push ha ((i2 g' e).1 t he)
      · exact .push ha ((i2 g' e).2 he)
    · have hl : PacketGroupIter.loop (p :: ps) (some g0) = .inl (some g0, ⟨ps, some p, false⟩) := by
        rw [PacketGroupIter.loop, if_pos (by simpa using ha)]
      unfold Agrees
      rw [hl]
      refine ⟨fun o it e => ?_, fun g' e => by cases e⟩
      cases e
      exact ⟨g0, s, rfl, rfl, .other ha, h⟩

theorem loop_agrees (e0 : Option PacketDecoder) (ps : List Packet) : ∀ (s : PacketDecoder), Src s ps e0 → ∀ g, Agrees s none g ps e0 := by
  induction ps with
  | nil =>
    intro s h g
    refine ⟨fun o it e => by (unfold PacketGroupIter.loop at e; cases e), fun g' e => ?_⟩
    unfold PacketGroupIter.loop at e
    cases e
    refine ⟨fun t he => ?_, fun he => ?_⟩
    · subst he
      exact .broke h.nil
    · subst he
      exact .panicked h.dead
  | cons p ps ih =>
    intro s h g
    obtain ⟨s', h1, h2⟩ := h.cons
    obtain ⟨i1, i2⟩ := loop_cached (p := p) h2 (ih s' h2) g
    refine ⟨fun o it e => ?_, fun g' e => ⟨fun t he => ?_, fun he => ?_⟩⟩
    · obtain ⟨g', s'', a1, a2, a3, a4⟩ := i1 o it e
      exact ⟨g', s'', a1, a2, .pulled h1 a3, a4⟩
    · exact .pulled h1 ((i2 g' e).1 t he)
    · exact .pulled h1 ((i2 g' e).2 he)

theorem loop_agrees' {s : PacketDecoder} {ps : List Packet} {e0 : Option PacketDecoder} (h : Src s ps e0) (c : Option Packet) : Agrees s c none (c.toList ++ ps) e0 := by
  cases c with
  | none => exact loop_agrees e0 ps s h none
  | some p => exact loop_cached h (loop_agrees e0 ps s h) none

theorem loop_some_inl (l : List Packet) : ∀ (g0 : PacketGroup) (o : Option PacketGroup) (it : PacketGroupIter), PacketGroupIter.loop l (some g0) = .inl (o, it) → it.cached ≠ none := by
  induction l with
  | nil => intro g0 o it h; unfold PacketGroupIter.loop at h; cases h
  | cons p l ih =>
    intro g0 o it h
    unfold PacketGroupIter.loop at h
    split at h
    · cases h; simp
    · exact ih _ _ _ h

theorem loop_some_inr (l : List Packet) : ∀ (g0 : PacketGroup) (o : Option PacketGroup), PacketGroupIter.loop l (some g0) = .inr o → o ≠ none := by
  induction l with
  | nil => intro g0 o h; unfold PacketGroupIter.loop at h; cases h; simp
  | cons p l ih =>
    intro g0 o h
    unfold PacketGroupIter.loop at h
    split at h
    · cases h
    · exact ih _ _ h

/-- Whether the first packet of a group is a standalone packet. -/
abbrev headAlone (g : PacketGroup) : Bool := (g.packets.head?.map Packet.isStandalone).getD false

theorem loop_inl_alone (l : List Packet) (g : PacketGroup) (it : PacketGroupIter) (h : PacketGroupIter.loop l none = .inl (some g, it)) (hc : it.cached = none) :
    headAlone g = true := by
  cases l with
  | nil => unfold PacketGroupIter.loop at h; cases h
  | cons p l =>
    unfold PacketGroupIter.loop at h
    split at h
    · rename_i hs; cases h; exact hs
    · exact absurd hc (loop_some_inl _ _ _ _ h)

theorem loop_inr_open (l : List Packet) (g : PacketGroup) (h : PacketGroupIter.loop l none = .inr (some g)) : headAlone g = false := by
  cases l with
  | nil => unfold PacketGroupIter.loop at h; cases h
  | cons p l =>
    unfold PacketGroupIter.loop at h
    split at h
    · cases h
    · rename_i hs
      unfold headAlone
      rw [loop_head l _ _ (by simp) h]
      simpa using hs

theorem beforePanic_cons (g g' : PacketGroup) (gs : List PacketGroup) : Filter.beforePanic (g :: g' :: gs) = g :: Filter.beforePanic (g' :: gs) := by
  unfold Filter.beforePanic
  rw [List.getLast?_cons_cons]
  cases hh : (g' :: gs).getLast? with
  | none => simp at hh
  | some x => simp only; split <;> rfl

theorem beforePanic_one (g : PacketGroup) : Filter.beforePanic [g] = if headAlone g then [g] else [] := by
  unfold Filter.beforePanic
  rfl

/-- Whether the last group was still open when the input ended: its first packet is no standalone packet. -/
def endsOpen (gs : List PacketGroup) : Bool := match gs.getLast? with
  | some g => !headAlone g
  | none => false

theorem endsOpen_cons (g g' : PacketGroup) (gs : List PacketGroup) : endsOpen (g :: g' :: gs) = endsOpen (g' :: gs) := by
  unfold endsOpen
  rw [List.getLast?_cons_cons]

theorem loop_none_inl (l : List Packet) (o : Option PacketGroup) (it : PacketGroupIter) (h : PacketGroupIter.loop l none = .inl (o, it)) : o ≠ none := by
  cases l with
  | nil => unfold PacketGroupIter.loop at h; cases h
  | cons p l =>
    unfold PacketGroupIter.loop at h
    split at h
    · cases h; simp
    · have key : ∀ (l : List Packet) (g0 : PacketGroup), PacketGroupIter.loop l (some g0) = .inl (o, it) → o ≠ none := by
        intro l
        induction l with
        | nil => intro g0 h; unfold PacketGroupIter.loop at h; cases h
        | cons q l ih =>
          intro g0 h
          unfold PacketGroupIter.loop at h
          split at h
          · cases h; simp
          · exact ih _ h
      exact key _ _ h

theorem cached_none {it t : PacketGroupIter} (h : PacketGroupIter.next it = .ret (none, t)) (hd : it.done = false) : it.cached = none := by
  unfold PacketGroupIter.next at h
  rw [hd] at h
  simp only [Bool.false_eq_true, if_false] at h
  cases hcc : it.cached with
  | none => rfl
  | some p =>
    exfalso
    rw [hcc] at h
    simp only [Option.toList_some, List.cons_append, List.nil_append] at h
    split at h
    · cases h
    · rename_i s3 heq3
      exact loop_none_inl _ _ _ heq3 rfl
    · cases h
    · rename_i heq3
      unfold PacketGroupIter.loop at heq3
      split at heq3
      · cases heq3
      · exact loop_some_inr _ _ _ heq3 rfl

/-- What a step of the grouping of the list says about the input. -/
theorem next_cases {it it' : PacketGroupIter} {o : Option (Except Error PacketGroup)} (h : PacketGroupIter.next it = .ret (o, it')) (hd : it.done = false)
    {s : PacketDecoder} {e0 : Option PacketDecoder} (hs : Src s it.packets e0) :
    (∃ g s', o = some (.ok g) ∧ it'.done = false ∧ Loop s it.cached none (.returned g ⟨s', it'.cached, false⟩) ∧ Src s' it'.packets e0 ∧
      (it'.cached = none → headAlone g = true)) ∨
    (∃ g, o = some (.ok g) ∧ it' = ⟨[], none, false⟩ ∧ headAlone g = false ∧ (∀ t, e0 = some t → Loop s it.cached none (.broke (some g) ⟨t, none, false⟩)) ∧
      (e0 = none → Loop s it.cached none .panicked)) ∨
    (o = none ∧ (∀ t, e0 = some t → Loop s it.cached none (.broke none ⟨t, none, false⟩)) ∧ (e0 = none → Loop s it.cached none .panicked)) := by
  obtain ⟨i1, i2⟩ := loop_agrees' hs it.cached
  unfold PacketGroupIter.next at h
  rw [hd] at h
  simp only [Bool.false_eq_true, if_false] at h
  split at h
  · rename_i g' s' heq
    cases h
    obtain ⟨g'', s'', a1, a2, a3, a4⟩ := i1 _ _ heq
    cases a1
    exact .inl ⟨_, s'', rfl, a2, a3, a4, fun hc => loop_inl_alone _ _ _ heq hc⟩
  · rename_i s' heq
    exact absurd rfl (loop_none_inl _ _ _ heq)
  · rename_i g' heq
    cases h
    exact .inr (.inl ⟨_, rfl, rfl, loop_inr_open _ _ heq, i2 _ heq⟩)
  · rename_i heq
    cases h
    exact .inr (.inr ⟨rfl, i2 _ heq⟩)

/-- The groups of the list of packets up to the end come out of the input. If the last one was still open, the input is then read again. -/
theorem groups_of_list {it t : PacketGroupIter} {gs : List PacketGroup} {t0 : PacketDecoder} (hc : Collects PacketGroupIter.next it (gs.map .ok) (some t)) :
    ∀ (s : PacketDecoder), it.done = false → Src s it.packets (some t0) → ∀ (all : List PacketGroup) (ends : Bool), Groups ⟨s, it.cached, false⟩ all ends ↔
      if endsOpen gs then ∃ rest, all = gs ++ rest ∧ Groups ⟨t0, none, false⟩ rest ends else all = gs ∧ ends = true := by
  generalize hl : gs.map (Except.ok (ε := Error)) = items at hc
  generalize he : some t = e at hc
  induction hc generalizing gs with
  | panicked => cases he
  | @done it it' h =>
    intro s hd hs all ends
    cases gs with
    | cons => cases hl
    | nil =>
      rcases next_cases h hd hs with ⟨g, _, h, _⟩ | ⟨g, h, _⟩ | ⟨_, k, _⟩
      · cases h
      · cases h
      · have hg : Groups ⟨s, it.cached, false⟩ [] true := .done (.ended rfl (k t0 rfl))
        show _ ↔ all = [] ∧ ends = true
        exact ⟨fun h' => h'.unique hg, fun ⟨h1, h2⟩ => by subst h1 h2; exact hg⟩
  | @step it it' a as e h hrest ih =>
    intro s hd hs all ends
    cases gs with
    | nil => cases hl
    | cons g gs =>
      cases hl
      have via : ∀ {x : Iter}, Next ⟨s, it.cached, false⟩ (.ret (some g, x)) → (Groups ⟨s, it.cached, false⟩ all ends ↔ ∃ all', all = g :: all' ∧ Groups x all' ends) := by
        intro x hx
        constructor
        · intro h
          cases h with
          | done k => cases k.unique hx
          | panicked k => cases k.unique hx
          | step k k2 => cases k.unique hx; exact ⟨_, rfl, k2⟩
        · rintro ⟨_, rfl, k⟩
          exact .step hx k
      rcases next_cases h hd hs with ⟨g', s', h1, h2, h3, h4, h5⟩ | ⟨g', h1, h2, h3, h4, _⟩ | ⟨h1, _⟩
      · cases h1
        rw [via (.returned rfl h3)]
        have hrec := ih rfl he s' h2 h4
        have ho : endsOpen (g :: gs) = endsOpen gs := by
          cases gs with
          | cons g2 gs => exact endsOpen_cons g g2 gs
          | nil =>
            have hcn : it'.cached = none := by
              cases hrest with
              | panicked => cases he
              | done hn => exact cached_none hn h2
            show (!headAlone g) = false
            rw [h5 hcn]; rfl
        rw [ho]
        constructor
        · rintro ⟨all', rfl, k⟩
          have := (hrec all' ends).1 k
          split
          · rename_i hh; rw [if_pos hh] at this; obtain ⟨rest, h8, h9⟩ := this; exact ⟨rest, by rw [h8]; rfl, h9⟩
          · rename_i hh; rw [if_neg hh] at this; rw [this.1]; exact ⟨rfl, this.2⟩
        · intro k
          split at k
          · rename_i hh; obtain ⟨rest, rfl, k⟩ := k; exact ⟨gs ++ rest, rfl, (hrec _ _).2 (by rw [if_pos hh]; exact ⟨rest, rfl, k⟩)⟩
          · rename_i hh; obtain ⟨rfl, rfl⟩ := k; exact ⟨gs, rfl, (hrec _ _).2 (by rw [if_neg hh]; exact ⟨rfl, rfl⟩)⟩
      · cases h1
        subst h2
        rw [via (.last rfl (h4 t0 rfl))]
        have : gs = [] := by
          cases gs with
          | nil => rfl
          | cons g2 gs => cases hrest with | step hn _ => cases hn
        subst this
        have ho : endsOpen [g] = true := by show (!headAlone g) = true; rw [h3]; rfl
        rw [if_pos ho]
        rfl
      · cases h1

/-- When the decoder panics, the group that is still open is lost. -/
theorem groups_of_list_dead {it t : PacketGroupIter} {gs : List PacketGroup} (hc : Collects PacketGroupIter.next it (gs.map .ok) (some t)) :
    ∀ (s : PacketDecoder), it.done = false → Src s it.packets none → Groups ⟨s, it.cached, false⟩ (Filter.beforePanic gs) false := by
  generalize hl : gs.map (Except.ok (ε := Error)) = items at hc
  generalize he : some t = e at hc
  induction hc generalizing gs with
  | panicked => cases he
  | @done it it' h =>
    intro s hd hs
    cases gs with
    | cons => cases hl
    | nil =>
      rcases next_cases h hd hs with ⟨g, _, h, _⟩ | ⟨g, h, _⟩ | ⟨_, _, k⟩
      · cases h
      · cases h
      · exact .panicked (.panicked rfl (k rfl))
  | @step it it' a as e h hrest ih =>
    intro s hd hs
    cases gs with
    | nil => cases hl
    | cons g gs =>
      cases hl
      rcases next_cases h hd hs with ⟨g', s', h1, h2, h3, h4, h5⟩ | ⟨g', h1, h2, h3, _, h4⟩ | ⟨h1, _⟩
      · cases h1
        have hrec := ih rfl he s' h2 h4
        cases gs with
        | cons g2 gs =>
          rw [beforePanic_cons]
          exact .step (.returned rfl h3) hrec
        | nil =>
          have hcn : it'.cached = none := by
            cases hrest with
            | panicked => cases he
            | done hn => exact cached_none hn h2
          rw [beforePanic_one, h5 hcn, if_pos rfl]
          exact .step (.returned rfl h3) hrec
      · cases h1
        subst h2
        have : gs = [] := by
          cases gs with
          | nil => rfl
          | cons g2 gs => cases hrest with | step hn _ => cases hn
        subst this
        rw [beforePanic_one, h3]
        exact .panicked (.panicked rfl (h4 rfl))
      · cases h1

/-! When the groups come to an end, the packets do. -/

theorem Pull.some_src {s s' : PacketDecoder} {p : Packet} (h : Pull s (.ret (some p, s'))) {ps : List Packet} {e0 : Option PacketDecoder} (hs : Src s' ps e0) :
    Src s (p :: ps) e0 := by
  generalize hr : Outcome.ret (some p, s') = o at h
  induction h with
  | ended => cases hr
  | panicked => cases hr
  | @packet s s' p k =>
    cases hr
    obtain ⟨items, h2, h3⟩ := hs
    exact ⟨_, .step k h2, by rw [← h3]; rfl⟩
  | @skip s s1 e o k _ ih =>
    obtain ⟨items, h2, h3⟩ := ih hr
    exact ⟨_, .step k h2, by rw [← h3]; rfl⟩

theorem Pull.none_src {s s' : PacketDecoder} (h : Pull s (.ret (none, s'))) : Src s [] (some s') := by
  generalize hr : Outcome.ret (none, s') = o at h
  induction h with
  | @ended s s' k => cases hr; exact ⟨[], .done k, rfl⟩
  | panicked => cases hr
  | packet => cases hr
  | @skip s s1 e o k _ ih =>
    obtain ⟨items, h2, h3⟩ := ih hr
    exact ⟨_, .step k h2, by rw [← h3]; rfl⟩

theorem Pull.panic_src {s : PacketDecoder} (h : Pull s .panic) : Src s [] none := by
  generalize hr : Outcome.panic = o at h
  induction h with
  | ended => cases hr
  | panicked k => exact ⟨[], .panicked k, rfl⟩
  | packet => cases hr
  | @skip s s1 e o k _ ih =>
    obtain ⟨items, h2, h3⟩ := ih hr
    exact ⟨_, .step k h2, by rw [← h3]; rfl⟩

theorem Loop.src {s : PacketDecoder} {c : Option Packet} {g : Option PacketGroup} {e : LoopEnd} (h : Loop s c g e) :
    (∀ g' it, e = .returned g' it → it.done = false ∧ ∀ ps e0, Src it.packets ps e0 → ∃ ps', Src s ps' e0) ∧
    ((∀ g' it, e ≠ .returned g' it) → ∃ ps' e0, Src s ps' e0) := by
  induction h with
  | broke h => exact ⟨fun _ _ h => (by cases h), fun _ => ⟨_, _, h.none_src⟩⟩
  | panicked h => exact ⟨fun _ _ h => (by cases h), fun _ => ⟨_, _, h.panic_src⟩⟩
  | pulled h _ ih =>
    obtain ⟨i1, i2⟩ := ih
    refine ⟨fun g' it h' => ?_, fun h' => ?_⟩
    · obtain ⟨b1, b2⟩ := i1 g' it h'
      exact ⟨b1, fun ps e0 hs => (b2 ps e0 hs).elim fun ps' hs' => ⟨_, h.some_src hs'⟩⟩
    · obtain ⟨ps', e0, b⟩ := i2 h'
      exact ⟨_, _, h.some_src b⟩
  | standalone h =>
    refine ⟨fun g' it h => ?_, fun h => absurd rfl (h _ _)⟩
    cases h
    exact ⟨rfl, fun ps ends h => ⟨ps, h⟩⟩
  | first _ _ ih => exact ih
  | other h =>
    refine ⟨fun g' it h => ?_, fun h => absurd rfl (h _ _)⟩
    cases h
    exact ⟨rfl, fun ps ends h => ⟨ps, h⟩⟩
  | push _ _ ih => exact ih

theorem Groups.src {it : Iter} {gs : List PacketGroup} {ends : Bool} (h : Groups it gs ends) (hd : it.done = false) : ∃ ps e0, Src it.packets ps e0 := by
  induction h with
  | @done s s' h =>
    cases h with
    | finished k => rw [hd] at k; cases k
    | ended _ l => exact l.src.2 (fun _ _ h => (by cases h))
  | @panicked s h =>
    cases h with
    | panicked _ l => exact l.src.2 (fun _ _ h => (by cases h))
  | @step s s' g gs ends h _ ih =>
    cases h with
    | returned _ l =>
      obtain ⟨b1, b2⟩ := l.src.1 _ _ rfl
      obtain ⟨ps, e0, hs⟩ := ih b1
      obtain ⟨ps', hs'⟩ := b2 _ _ hs
      exact ⟨ps', e0, hs'⟩
    | last _ l => exact l.src.2 (fun _ _ h => (by cases h))

end Lazy

/-- C102: exactly what a loop over the groups of an input gets, for every input: the groups of the packets read up to the first end of the input. If that end came while a group was
open, that group is handed out and the input is read again, from where it now stands, with a new and empty grouping. If it came after a standalone packet, the loop ends.
If the packet decoder panics, so does the loop, and an open group is lost. -/
theorem C102_exact (r : Reader) (items : List (Except Error Packet)) (e : Option PacketDecoder) (hc : Collects PacketDecoder.next (PacketDecoder.new r) items e)
    (all : List PacketGroup) (ha : GroupsOf (oks items) all) (gs : List PacketGroup) (ends : Bool) :
    Lazy.Groups (Lazy.start r) gs ends ↔
      match e with
      | none => gs = Filter.beforePanic all ∧ ends = false
      | some t => if Lazy.endsOpen all then ∃ rest, gs = all ++ rest ∧ Lazy.Groups ⟨t, none, false⟩ rest ends else gs = all ∧ ends = true := by
  obtain ⟨t, h3⟩ := ha
  cases e with
  | none =>
    have hg : Lazy.Groups (Lazy.start r) (Filter.beforePanic all) false := Lazy.groups_of_list_dead h3 _ rfl ⟨items, hc, rfl⟩
    exact ⟨fun h => h.unique hg, fun ⟨h1, h2⟩ => by subst h1 h2; exact hg⟩
  | some t0 => exact Lazy.groups_of_list h3 (PacketDecoder.new r) rfl ⟨items, hc, rfl⟩ gs ends

/-- C102: and the loop only comes to an end if the packets do, once. -/
theorem C102_exact_ends (r : Reader) (gs : List PacketGroup) (ends : Bool) (h : Lazy.Groups (Lazy.start r) gs ends) :
    ∃ items e, Collects PacketDecoder.next (PacketDecoder.new r) items e := by
  obtain ⟨ps, e0, items, h1, _⟩ := h.src rfl
  exact ⟨items, e0, h1⟩

namespace Lazy

theorem collects_ends {s t : PacketDecoder} {items : List (Except Error Packet)} (ho : EndsOnce s.reader) (hc : Collects PacketDecoder.next s items (some t)) :
    PacketDecoder.next t = .ret (none, t) := by
  generalize he : some t = e at hc
  induction hc with
  | done k => cases he; exact (next_ends ho k).2 rfl
  | panicked => cases he
  | step k _ ih => exact ih (next_ends ho k).1 he

/-- The two descriptions agree: over an input that ends once, the groups the code gets are the groups of all its packets; when the decoder panics, without the group then open. -/
theorem groups_iff (r : Reader) (hr : EndsOnce r) (gs : List PacketGroup) (ends : Bool) :
    Groups (start r) gs ends ↔ ∃ items e all, Collects PacketDecoder.next (PacketDecoder.new r) items e ∧ e.isSome = ends ∧ GroupsOf (oks items) all ∧
      gs = if ends then all else Filter.beforePanic all := by
  have key : ∀ items e all, Collects PacketDecoder.next (PacketDecoder.new r) items e → GroupsOf (oks items) all →
      (Groups (start r) gs ends ↔ e.isSome = ends ∧ gs = if ends then all else Filter.beforePanic all) := by
    intro items e all h1 h2
    rw [C102_exact r items e h1 all h2 gs ends]
    cases e with
    | none =>
      constructor
      · rintro ⟨rfl, rfl⟩; exact ⟨rfl, rfl⟩
      · rintro ⟨h, k⟩
        cases ends with
        | true => cases h
        | false => exact ⟨k, rfl⟩
    | some t =>
      have hn := collects_ends hr h1
      have hd : Groups ⟨t, none, false⟩ [] true := .done (.ended rfl (.broke (.ended hn)))
      simp only
      split
      · constructor
        · rintro ⟨rest, rfl, k⟩
          obtain ⟨rfl, rfl⟩ := k.unique hd
          exact ⟨rfl, by simp⟩
        · rintro ⟨h, k⟩
          simp only [Option.isSome_some] at h
          subst h
          exact ⟨[], by simpa using k, hd⟩
      · constructor
        · rintro ⟨rfl, rfl⟩; exact ⟨rfl, rfl⟩
        · rintro ⟨h, k⟩
          simp only [Option.isSome_some] at h
          subst h
          exact ⟨k, rfl⟩
  constructor
  · intro h
    obtain ⟨items, e, h1⟩ := C102_exact_ends r gs ends h
    obtain ⟨all, t, h4, _⟩ := C11_partition (oks items)
    obtain ⟨k1, k2⟩ := (key items e all h1 ⟨t, h4⟩).1 h
    exact ⟨items, e, all, h1, k1, ⟨t, h4⟩, k2⟩
  · rintro ⟨items, e, all, h1, h2, h3, h4⟩
    exact (key items e all h1 h3).2 ⟨h2, h4⟩

end Lazy

/-- C102: for an input that ends once, `filter` with time bounds gets the items of `Filter.PacketsWithTimes`. -/
theorem C102_timed_partial (b : Build) (r : Reader) (hr : EndsOnce r) (items : List Filter.Item) (ends : Bool) :
    Lazy.PacketsWithTimes b r items ends ↔ Filter.PacketsWithTimes b r items ends := by
  constructor
  · rintro ⟨gs, e, h, rfl, rfl⟩
    obtain ⟨pitems, e', all, h1, rfl, ⟨t, h3⟩, rfl⟩ := (Lazy.groups_iff r hr gs e).1 h
    refine ⟨pitems, e', h1, _, t, h3, ?_⟩
    rw [Merger.oks_map_ok]
    cases e' with
    | some x => simp
    | none => simp
  · rintro ⟨pitems, e, h1, gitems, t, h2, h3⟩
    obtain ⟨all, t', h4, _⟩ := C11_partition (oks pitems)
    obtain ⟨rfl, _⟩ := h2.unique h4
    rw [Merger.oks_map_ok] at h3
    refine ⟨_, e.isSome, (Lazy.groups_iff r hr _ _).2 ⟨pitems, e, all, h1, rfl, ⟨_, h4⟩, rfl⟩, ?_⟩
    cases e with
    | some x => simp only at h3; simp [h3]
    | none => simp only at h3; simp [h3]

/-- C102: the same for the pointers of a file that is merged. -/
theorem C102_merge_partial {Path : Type} [DecidableEq Path] (b : Build) (τ : Epoch → Int) (m : Merger Path) (path : Path) (f : MFile) (hr : EndsOnce f.reader)
    (r : Option (List (Ptr Path))) : Lazy.Pointers b τ m path f r ↔ m.Pointers b τ path f r := by
  constructor
  · rintro ⟨gs, e, h, h'⟩
    obtain ⟨pitems, e', all, h1, rfl, ⟨t, h3⟩, rfl⟩ := (Lazy.groups_iff _ hr gs e).1 h
    refine ⟨pitems, e', h1, _, t, h3, ?_⟩
    rw [Merger.oks_map_ok]
    cases e' with
    | some x =>
      simp only [Option.isSome_some, if_true] at h'
      cases hp : m.pointersLoop b τ path all [] <;> rw [hp] at h' <;> exact h'
    | none => exact h'
  · rintro ⟨pitems, e, h1, gitems, t, h2, h3⟩
    obtain ⟨all, t', h4, _⟩ := C11_partition (oks pitems)
    obtain ⟨rfl, _⟩ := h2.unique h4
    rw [Merger.oks_map_ok] at h3
    refine ⟨_, e.isSome, (Lazy.groups_iff _ hr _ _).2 ⟨pitems, e, all, h1, rfl, ⟨_, h4⟩, rfl⟩, ?_⟩
    cases e with
    | some x =>
      simp only [Option.isSome_some, if_true]
      cases hp : m.pointersLoop b τ path all [] <;> rw [hp] at h3 <;> exact h3
    | none => exact h3

/-- C102: every input that delivers some bytes and then stays at its end is of this kind. -/
theorem C102_delivers (r : Reader) (bs : List U8) (h : r.Delivers bs) : EndsOnce r := by
  intro e he
  rcases h.1 e he with ⟨c, h1, rfl⟩ | rfl
  · exact ⟨fun h => h1 (by simpa using h), by simp⟩
  · exact ⟨by simp, by simp⟩

/-! ## What comes after the end -/

/-- `r` goes on after an end of file: it reads like `r0` until it reports the end for the first time; `r0` stays at its end. -/
def Spec.GoesOn (r r0 : Reader) : Prop := ∃ post, r.script = r0.script ++ .data [] :: post ∧ r0.tail = .eof ∧ ∀ e ∈ r0.script, e ≠ .data []

namespace EndOfInput

theorem readExactGo_goesOn (t : Tail) (post pre : List Ev) (n : Nat) (acc : List U8) (hp : ∀ e ∈ pre, e ≠ .data []) :
    ∃ k got rest, Reader.readExactGo .eof pre n acc = (k, got, rest) ∧ (∀ e ∈ rest, e ≠ .data []) ∧
      (Reader.readExactGo t (pre ++ .data [] :: post) n acc = (k, got, rest ++ .data [] :: post) ∨
        (k = some .unexpectedEof ∧ ∃ rest', Reader.readExactGo t (pre ++ .data [] :: post) n acc = (k, got, rest'))) := by
  fun_induction Reader.readExactGo .eof pre n acc with
  | case1 script acc => exact ⟨_, _, _, rfl, hp, .inl (readExactGo_zero _ _ _)⟩
  | case2 n acc heq => exact ⟨_, _, _, rfl, by simp, .inr ⟨rfl, post, by rw [List.nil_append, Reader.readExactGo, if_pos rfl]⟩⟩
  | case3 n acc c heq => cases heq
  | case4 rest0 n acc ih =>
    obtain ⟨k, got, rest, h1, h2, h3⟩ := ih (fun e he => hp e (by simp [he]))
    refine ⟨k, got, rest, h1, h2, ?_⟩
    rw [List.cons_append, Reader.readExactGo, if_pos rfl]
    exact h3
  | case5 k0 rest0 n acc hk =>
    refine ⟨_, _, _, rfl, fun e he => hp e (by simp [he]), .inl ?_⟩
    rw [List.cons_append, Reader.readExactGo, if_neg hk]
  | case6 rest0 n acc => exact absurd rfl (hp (.data []) (by simp))
  | case7 rest0 n acc bs hne hle ih =>
    obtain ⟨k, got, rest, h1, h2, h3⟩ := ih (fun e he => hp e (by simp [he]))
    refine ⟨k, got, rest, h1, h2, ?_⟩
    rw [List.cons_append, Reader.readExactGo, if_neg hne, if_pos hle]
    exact h3
  | case8 rest0 n acc bs hne hle =>
    refine ⟨_, _, _, rfl, fun e he => ?_, .inl ?_⟩
    · rcases List.mem_cons.1 he with rfl | he
      · intro h
        simp only [Ev.data.injEq] at h
        have := congrArg List.length h
        simp only [List.length_drop, List.length_nil] at this
        omega
      · exact hp e (by simp [he])
    · rw [List.cons_append, Reader.readExactGo, if_neg hne, if_neg hle]
      rfl

theorem readExact_goesOn {r r0 : Reader} (h : GoesOn r r0) (n : Nat) : ∃ k got r1 r2, r0.readExact n = (k, got, r1) ∧ r.readExact n = (k, got, r2) ∧
    (k ≠ some .unexpectedEof → GoesOn r2 r1) := by
  obtain ⟨sc, t⟩ := r
  obtain ⟨pre, t0⟩ := r0
  obtain ⟨post, h1, h2, h3⟩ := h
  simp only at h1 h2 h3
  subst h1 h2
  obtain ⟨k, got, rest, e1, e2, e3⟩ := readExactGo_goesOn t post pre n [] h3
  rcases e3 with e3 | ⟨rfl, rest', e3⟩
  · exact ⟨k, got, ⟨rest, .eof⟩, ⟨_, t⟩, by simp [Reader.readExact, e1], by simp only [Reader.readExact, e3], fun _ => ⟨post, rfl, rfl, e2⟩⟩
  · exact ⟨_, got, ⟨rest, .eof⟩, ⟨rest', t⟩, by simp [Reader.readExact, e1], by simp only [Reader.readExact, e3], fun h => absurd rfl h⟩

/-- Reading a packet gives the same, unless the end comes first; then both report the end. -/
theorem next_goesOn {s s0 : PacketDecoder} (h : GoesOn s.reader s0.reader) (ho : s.offset = s0.offset) :
    (PacketDecoder.next s = .panic ∧ PacketDecoder.next s0 = .panic) ∨
    ∃ x s' s0', PacketDecoder.next s = .ret (x, s') ∧ PacketDecoder.next s0 = .ret (x, s0') ∧ (x ≠ none → GoesOn s'.reader s0'.reader ∧ s'.offset = s0'.offset) := by
  obtain ⟨k, got, r1, r2, h1, h2, h3⟩ := readExact_goesOn h PrimaryHeader.LEN
  unfold PacketDecoder.next Packet.read
  rw [h1, h2, ho]
  cases k with
  | some k =>
    right
    by_cases hk : k = .unexpectedEof
    · subst hk
      exact ⟨none, _, _, by simp; rfl, by simp; rfl, fun h => absurd rfl h⟩
    · have : Error.io k ≠ .io .unexpectedEof := by simpa using hk
      refine ⟨some (.error (.io k)), ⟨r2, s0.offset⟩, ⟨r1, s0.offset⟩, ?_, ?_, fun _ => ⟨h3 (by simpa using hk), rfl⟩⟩
      · obtain ⟨sr, so⟩ := s
        cases ho
        simp [hk]
      · simp [hk]
  | none =>
    have hg := h3 (by simp)
    simp only
    cases hd : PrimaryHeader.decode got with
    | error er =>
      right
      have : er ≠ .io .unexpectedEof := by
        intro h
        subst h
        unfold PrimaryHeader.decode at hd
        split at hd <;> cases hd
      refine ⟨some (.error er), ⟨r2, s0.offset⟩, ⟨r1, s0.offset⟩, ?_, ?_, fun _ => ⟨hg, rfl⟩⟩
      · obtain ⟨sr, so⟩ := s
        cases ho
        simp [this]
      · simp [this]
    | ok ph =>
      simp only
      by_cases hl : PrimaryHeader.LEN + (ph.lenMinus1.toNat + 1) ≤ Packet.MAX_LEN
      · rw [if_pos hl, if_pos hl]
        obtain ⟨k', got', r1', r2', g1, g2, g3⟩ := readExact_goesOn hg (PrimaryHeader.LEN + (ph.lenMinus1.toNat + 1) - PrimaryHeader.LEN)
        rw [g1, g2]
        right
        cases k' with
        | some k =>
          by_cases hk : k = .unexpectedEof
          · subst hk
            exact ⟨none, _, _, by simp; rfl, by simp; rfl, fun h => absurd rfl h⟩
          · refine ⟨some (.error (.io k)), ⟨r2', s0.offset⟩, ⟨r1', s0.offset⟩, ?_, ?_, fun _ => ⟨g3 (by simpa using hk), rfl⟩⟩
            · obtain ⟨sr, so⟩ := s
              cases ho
              simp [hk]
            · simp [hk]
        | none => exact ⟨_, _, _, rfl, rfl, fun _ => ⟨g3 (by simp), rfl⟩⟩
      · rw [if_neg hl, if_neg hl]
        exact .inl ⟨rfl, rfl⟩

/-- The items of an iterator over packets, when its `next` is one call of the decoder's. -/
theorem collects_goesOn {α : Type} (next : PacketDecoder → Outcome (Option α × PacketDecoder))
    (hn : ∀ s s0 : PacketDecoder, GoesOn s.reader s0.reader → s.offset = s0.offset → (next s = .panic ∧ next s0 = .panic) ∨
      ∃ x s' s0', next s = .ret (x, s') ∧ next s0 = .ret (x, s0') ∧ (x ≠ none → GoesOn s'.reader s0'.reader ∧ s'.offset = s0'.offset)) (items : List α) (ends : Bool) :
    ∀ (s s0 : PacketDecoder), GoesOn s.reader s0.reader → s.offset = s0.offset →
    ((∃ e, Collects next s items e ∧ e.isSome = ends) ↔ ∃ e, Collects next s0 items e ∧ e.isSome = ends) := by
  induction items with
  | nil =>
    intro s s0 h ho
    rcases hn s s0 h ho with ⟨h1, h2⟩ | ⟨x, s', s0', h1, h2, h3⟩
    · constructor
      · rintro ⟨e, hc, he⟩
        cases hc with
        | done k => rw [h1] at k; cases k
        | panicked k => exact ⟨none, .panicked h2, he⟩
      · rintro ⟨e, hc, he⟩
        cases hc with
        | done k => rw [h2] at k; cases k
        | panicked k => exact ⟨none, .panicked h1, he⟩
    · constructor
      · rintro ⟨e, hc, he⟩
        cases hc with
        | done k => rw [h1] at k; cases k; exact ⟨_, .done h2, he⟩
        | panicked k => rw [h1] at k; cases k
      · rintro ⟨e, hc, he⟩
        cases hc with
        | done k => rw [h2] at k; cases k; exact ⟨_, .done h1, he⟩
        | panicked k => rw [h2] at k; cases k
  | cons a as ih =>
    intro s s0 h ho
    rcases hn s s0 h ho with ⟨h1, h2⟩ | ⟨x, s', s0', h1, h2, h3⟩
    · constructor <;> rintro ⟨e, hc, he⟩ <;> cases hc with | step k _ => first | (rw [h1] at k; cases k) | (rw [h2] at k; cases k)
    · constructor
      · rintro ⟨e, hc, he⟩
        cases hc with
        | step k k2 =>
          rw [h1] at k
          cases k
          obtain ⟨g1, g2⟩ := h3 (by simp)
          obtain ⟨e', l1, l2⟩ := (ih _ _ g1 g2).1 ⟨e, k2, he⟩
          exact ⟨e', .step h2 l1, l2⟩
      · rintro ⟨e, hc, he⟩
        cases hc with
        | step k k2 =>
          rw [h2] at k
          cases k
          obtain ⟨g1, g2⟩ := h3 (by simp)
          obtain ⟨e', l1, l2⟩ := (ih _ _ g1 g2).2 ⟨e, k2, he⟩
          exact ⟨e', .step h1 l1, l2⟩

end EndOfInput

/-- C102: a loop over `decode_packets` never sees what comes after the end of the input. -/
theorem C102_decode_packets (r r0 : Reader) (h : GoesOn r r0) (items : List (Except Error Packet)) (ends : Bool) :
    (∃ e, Collects PacketDecoder.next (PacketDecoder.new r) items e ∧ e.isSome = ends) ↔
    ∃ e, Collects PacketDecoder.next (PacketDecoder.new r0) items e ∧ e.isSome = ends :=
  EndOfInput.collects_goesOn _ (fun _ _ h ho => EndOfInput.next_goesOn h ho) items ends _ _ h rfl

/-- C102: neither does `ccsds info`, -/
theorem C102_info (b : Build) (τ : Epoch → Int) (cds : Bool) (r r0 : Reader) (h : GoesOn r r0) (o : Option Info.Info) : Info.Runs b τ cds r o ↔ Info.Runs b τ cds r0 o := by
  have key : ∀ (r r0 : Reader), (∀ items ends, (∃ e, Collects PacketDecoder.next (PacketDecoder.new r) items e ∧ e.isSome = ends) →
      ∃ e, Collects PacketDecoder.next (PacketDecoder.new r0) items e ∧ e.isSome = ends) → Info.Runs b τ cds r o → Info.Runs b τ cds r0 o := by
    intro r r0 h hr
    cases hr with
    | panicked hc =>
      obtain ⟨e', h1, h2⟩ := h _ _ ⟨_, hc, rfl⟩
      cases e' with
      | none => exact .panicked h1
      | some _ => cases h2
    | loopPanicked hc hl =>
      obtain ⟨e', h1, h2⟩ := h _ _ ⟨_, hc, rfl⟩
      cases e' with
      | none => cases h2
      | some _ => exact .loopPanicked h1 hl
    | done hc hl hp =>
      obtain ⟨e', h1, h2⟩ := h _ _ ⟨_, hc, rfl⟩
      cases e' with
      | none => cases h2
      | some _ => exact .done h1 hl hp
  exact ⟨key r r0 (fun items ends => (C102_decode_packets r r0 h items ends).1), key r0 r (fun items ends => (C102_decode_packets r r0 h items ends).2)⟩

/-- C102: nor `filter` without time bounds. -/
theorem C102_untimed (r r0 : Reader) (h : GoesOn r r0) (items : List Filter.Item) (ends : Bool) : Filter.PacketsUntimed r items ends ↔ Filter.PacketsUntimed r0 items ends := by
  have hn : ∀ s s0 : PacketDecoder, GoesOn s.reader s0.reader → s.offset = s0.offset →
      (Filter.mapWhileOk PacketDecoder.next s = .panic ∧ Filter.mapWhileOk PacketDecoder.next s0 = .panic) ∨
      ∃ x s' s0', Filter.mapWhileOk PacketDecoder.next s = .ret (x, s') ∧ Filter.mapWhileOk PacketDecoder.next s0 = .ret (x, s0') ∧
        (x ≠ none → GoesOn s'.reader s0'.reader ∧ s'.offset = s0'.offset) := by
    intro s s0 h ho
    unfold Filter.mapWhileOk
    rcases EndOfInput.next_goesOn h ho with ⟨h1, h2⟩ | ⟨x, s', s0', h1, h2, h3⟩
    · rw [h1, h2]; exact .inl ⟨rfl, rfl⟩
    · rw [h1, h2]
      right
      cases x with
      | none => exact ⟨none, s', s0', rfl, rfl, fun h => absurd rfl h⟩
      | some a =>
        cases a with
        | error e => exact ⟨none, s', s0', rfl, rfl, fun h => absurd rfl h⟩
        | ok a => exact ⟨some a, s', s0', rfl, rfl, fun _ => h3 (by simp)⟩
  constructor
  · rintro ⟨ps, e, h1, h2, h3⟩
    obtain ⟨e', l1, l2⟩ := (EndOfInput.collects_goesOn _ hn ps ends (PacketDecoder.new r) (PacketDecoder.new r0) h rfl).1 ⟨e, h1, h3.symm⟩
    exact ⟨ps, e', l1, h2, l2.symm⟩
  · rintro ⟨ps, e, h1, h2, h3⟩
    obtain ⟨e', l1, l2⟩ := (EndOfInput.collects_goesOn _ hn ps ends (PacketDecoder.new r) (PacketDecoder.new r0) h rfl).2 ⟨e, h1, h3.symm⟩
    exact ⟨ps, e', l1, h2, l2.symm⟩

/-- C102: with time bounds, what comes after the end is not seen either, if the last group before it starts with a standalone packet (or there is none). -/
theorem C102_final (b : Build) (r r0 : Reader) (h : GoesOn r r0) (items : List (Except Error Packet)) (e : PacketDecoder)
    (hc : Collects PacketDecoder.next (PacketDecoder.new r0) items (some e)) (all : List PacketGroup) (ha : GroupsOf (oks items) all)
    (hl : ∀ g, all.getLast? = some g → ∃ p, g.packets.head? = some p ∧ p.isStandalone = true) (is : List Filter.Item) (ends : Bool) :
    Lazy.PacketsWithTimes b r is ends ↔ Lazy.PacketsWithTimes b r0 is ends := by
  have ho : Lazy.endsOpen all = false := by
    unfold Lazy.endsOpen
    cases hg : all.getLast? with
    | none => rfl
    | some g =>
      obtain ⟨p, h1, h2⟩ := hl g hg
      simp [Lazy.headAlone, h1, h2]
  obtain ⟨e', hc', he'⟩ := (C102_decode_packets r r0 h items true).2 ⟨_, hc, rfl⟩
  cases e' with
  | none => cases he'
  | some e' =>
    have k : ∀ gs en, Lazy.Groups (Lazy.start r) gs en ↔ Lazy.Groups (Lazy.start r0) gs en := by
      intro gs en
      rw [C102_exact r items _ hc' all ha, C102_exact r0 items _ hc all ha]
      simp only [ho, Bool.false_eq_true, if_false]
    simp only [Lazy.PacketsWithTimes, k]

/-- The full statement for `filter` with time bounds. -/
def C102_full : Prop := ∀ (b : Build) (r r0 : Reader) (items : List Filter.Item) (ends : Bool), GoesOn r r0 →
  (Lazy.PacketsWithTimes b r items ends ↔ Lazy.PacketsWithTimes b r0 items ends)

/-! Concrete: a first segment of APID 1 (time 1963), the end of the file, and then the same packet again. -/
namespace EndOfInputEx

def seg : List U8 := [0x08#8, 1#8, 0x40#8, 0#8, 0#8, 7#8] ++ [7#8, 1#8, 0#8, 0#8, 0#8, 0#8, 0#8, 0#8]
def segPkt (off : Nat) : Packet := ⟨⟨0#8, 0#8, true, 1#16, 1#8, 0#16, 7#16⟩, seg, off⟩
def once : Reader := ⟨[.data seg], .eof⟩
def again : Reader := ⟨[.data seg, .data [], .data seg], .eof⟩

theorem goesOn : GoesOn again once := ⟨[.data seg], rfl, rfl, by simp [once, seg]⟩

theorem groups_once : Lazy.Groups (Lazy.start once) [⟨1#16, [segPkt 0]⟩] true :=
  .step (.last rfl (.pulled (.packet rfl) (.first rfl (.broke (.ended rfl))))) (.done (.ended rfl (.broke (.ended rfl))))

theorem groups_again : Lazy.Groups (Lazy.start again) [⟨1#16, [segPkt 0]⟩, ⟨1#16, [segPkt 14]⟩] true :=
  .step (.last rfl (.pulled (.packet rfl) (.first rfl (.broke (.ended rfl)))))
    (.step (.last rfl (.pulled (.packet rfl) (.first rfl (.broke (.ended rfl))))) (.done (.ended rfl (.broke (.ended rfl)))))

/-- `EndsOnce` holds of an input read in two pieces with an error between, -/
example : EndsOnce ⟨[.data (seg.take 3), .err (.other 1), .data (seg.drop 3)], .eof⟩ := by
  simp [EndsOnce, seg]
/-- and not of the one that goes on. -/
example : ¬ EndsOnce again := fun h => (h (.data []) (by simp [again])).1 rfl

/-- The hypotheses of `C102_exact` hold with an open group: the packets of `again` up to its first end. -/
example (gs : List PacketGroup) (ends : Bool) : Lazy.Groups (Lazy.start again) gs ends ↔
    ∃ rest, gs = [⟨1#16, [segPkt 0]⟩] ++ rest ∧ Lazy.Groups ⟨⟨⟨[.data seg], .eof⟩, 14⟩, none, false⟩ rest ends :=
  C102_exact again [.ok (segPkt 0)] (some ⟨⟨[.data seg], .eof⟩, 14⟩) (.step rfl (.done rfl)) [⟨1#16, [segPkt 0]⟩] ⟨_, .step rfl (.done rfl)⟩ gs ends

/-- The hypotheses of `C102_final` hold: the standalone packet of `FilterEx`, and what comes after the end. -/
example (b : Build) (post : List Ev) (is : List Filter.Item) (ends : Bool) :
    Lazy.PacketsWithTimes b ⟨[.data FilterEx.early] ++ .data [] :: post, .eof⟩ is ends ↔ Lazy.PacketsWithTimes b ⟨[.data FilterEx.early], .eof⟩ is ends :=
  C102_final b _ _ ⟨post, rfl, rfl, by simp [FilterEx.early]⟩ [.ok (FilterEx.earlyPkt 0)] _ (.step rfl (.done rfl)) [⟨1#16, [FilterEx.earlyPkt 0]⟩] ⟨_, .step rfl (.done rfl)⟩
    (by intro g hg; cases hg; exact ⟨_, rfl, rfl⟩) is ends

end EndOfInputEx

/-- A segment that is the last packet before the end: what comes after the end is filtered, too. -/
theorem C102_violated : ¬ C102_full := by
  intro h
  have h1 : Lazy.PacketsWithTimes ⟨true⟩ EndOfInputEx.again _ _ := ⟨_, _, EndOfInputEx.groups_again, rfl, rfl⟩
  obtain ⟨gs, e, h2, h3, _⟩ := (h ⟨true⟩ _ _ _ _ EndOfInputEx.goesOn).1 h1
  obtain ⟨rfl, rfl⟩ := h2.unique EndOfInputEx.groups_once
  exact absurd (congrArg List.length h3) (by decide +kernel)

/-! ## C100, call by call -/

namespace Lazy

/-- Two decoders whose readers are the same stream -/
def Same (s t : PacketDecoder) : Prop := s.flat = t.flat

theorem Same.symm {s t : PacketDecoder} (h : Same s t) : Same t s := Eq.symm h

theorem Same.next {s t s' : PacketDecoder} {x : Option (Except Error Packet)} (h : Same s t) (hn : PacketDecoder.next s = .ret (x, s')) :
    ∃ t', PacketDecoder.next t = .ret (x, t') ∧ Same s' t' := by
  have h1 := PacketDecoder.next_flat s
  have h2 := PacketDecoder.next_flat t
  rw [show s.flat = t.flat from h, h2, hn] at h1
  cases ht : PacketDecoder.next t with
  | panic => rw [ht] at h1; cases h1
  | ret p =>
    obtain ⟨y, t'⟩ := p
    rw [ht] at h1
    simp only [Outcome.mapState, Outcome.ret.injEq, Prod.mk.injEq] at h1
    obtain ⟨rfl, h1⟩ := h1
    exact ⟨t', rfl, h1.symm⟩

theorem Same.panic {s t : PacketDecoder} (h : Same s t) (hn : PacketDecoder.next s = .panic) : PacketDecoder.next t = .panic := by
  have h1 := PacketDecoder.next_flat s
  have h2 := PacketDecoder.next_flat t
  rw [show s.flat = t.flat from h, h2, hn] at h1
  cases ht : PacketDecoder.next t with
  | panic => rfl
  | ret p => rw [ht] at h1; cases h1

theorem Pull.same {s t : PacketDecoder} {o : Outcome (Option Packet × PacketDecoder)} (h : Pull s o) (hs : Same s t) :
    (o = .panic ∧ Pull t .panic) ∨ ∃ x s' t', o = .ret (x, s') ∧ Pull t (.ret (x, t')) ∧ Same s' t' := by
  induction h generalizing t with
  | ended k =>
    obtain ⟨t', k1, k2⟩ := hs.next k
    exact .inr ⟨_, _, t', rfl, .ended k1, k2⟩
  | panicked k => exact .inl ⟨rfl, .panicked (hs.panic k)⟩
  | packet k =>
    obtain ⟨t', k1, k2⟩ := hs.next k
    exact .inr ⟨_, _, t', rfl, .packet k1, k2⟩
  | skip k _ ih =>
    obtain ⟨t', k1, k2⟩ := hs.next k
    rcases ih k2 with ⟨h1, h2⟩ | ⟨x, s', t', h1, h2, h3⟩
    · exact .inl ⟨h1, .skip k1 h2⟩
    · exact .inr ⟨x, s', t', h1, .skip k1 h2, h3⟩

theorem Loop.same {s t : PacketDecoder} {c : Option Packet} {g : Option PacketGroup} {e : LoopEnd} (h : Loop s c g e) (hs : Same s t) :
    (e = .panicked ∧ Loop t c g .panicked) ∨
    (∃ g' s' t' c', e = .returned g' ⟨s', c', false⟩ ∧ Loop t c g (.returned g' ⟨t', c', false⟩) ∧ Same s' t') ∨
    (∃ g' s' t' c', e = .broke g' ⟨s', c', false⟩ ∧ Loop t c g (.broke g' ⟨t', c', false⟩) ∧ Same s' t') := by
  induction h generalizing t with
  | broke k =>
    rcases k.same hs with ⟨h1, _⟩ | ⟨x, s', t', h1, h2, h3⟩
    · cases h1
    · cases h1; exact .inr (.inr ⟨_, _, t', none, rfl, .broke h2, h3⟩)
  | panicked k =>
    rcases k.same hs with ⟨_, h2⟩ | ⟨x, s', t', h1, h2, h3⟩
    · exact .inl ⟨rfl, .panicked h2⟩
    · cases h1
  | pulled k _ ih =>
    rcases k.same hs with ⟨h1, _⟩ | ⟨x, s', t', h1, h2, h3⟩
    · cases h1
    · cases h1
      rcases ih h3 with ⟨a1, a2⟩ | ⟨g', s1, t1, c', a1, a2, a3⟩ | ⟨g', s1, t1, c', a1, a2, a3⟩
      · exact .inl ⟨a1, .pulled h2 a2⟩
      · exact .inr (.inl ⟨g', s1, t1, c', a1, .pulled h2 a2, a3⟩)
      · exact .inr (.inr ⟨g', s1, t1, c', a1, .pulled h2 a2, a3⟩)
  | standalone k => exact .inr (.inl ⟨_, _, t, none, rfl, .standalone k, hs⟩)
  | first k _ ih =>
    rcases ih hs with ⟨a1, a2⟩ | ⟨g', s1, t1, c', a1, a2, a3⟩ | ⟨g', s1, t1, c', a1, a2, a3⟩
    · exact .inl ⟨a1, .first k a2⟩
    · exact .inr (.inl ⟨g', s1, t1, c', a1, .first k a2, a3⟩)
    · exact .inr (.inr ⟨g', s1, t1, c', a1, .first k a2, a3⟩)
  | other k => exact .inr (.inl ⟨_, _, t, _, rfl, .other k, hs⟩)
  | push k _ ih =>
    rcases ih hs with ⟨a1, a2⟩ | ⟨g', s1, t1, c', a1, a2, a3⟩ | ⟨g', s1, t1, c', a1, a2, a3⟩
    · exact .inl ⟨a1, .push k a2⟩
    · exact .inr (.inl ⟨g', s1, t1, c', a1, .push k a2, a3⟩)
    · exact .inr (.inr ⟨g', s1, t1, c', a1, .push k a2, a3⟩)

theorem Groups.same {it : Iter} {gs : List PacketGroup} {ends : Bool} (h : Groups it gs ends) : ∀ (t : PacketDecoder), Same it.packets t → Groups ⟨t, it.cached, it.done⟩ gs ends := by
  induction h with
  | done k =>
    intro t hs
    cases k with
    | finished k => exact .done (.finished k)
    | ended k l =>
      rcases l.same hs with ⟨a1, _⟩ | ⟨g', s1, t1, c', a1, a2, a3⟩ | ⟨g', s1, t1, c', a1, a2, a3⟩
      · cases a1
      · cases a1
      · cases a1; exact .done (.ended k a2)
  | panicked k =>
    intro t hs
    cases k with
    | panicked k l =>
      rcases l.same hs with ⟨a1, a2⟩ | ⟨g', s1, t1, c', a1, a2, a3⟩ | ⟨g', s1, t1, c', a1, a2, a3⟩
      · exact .panicked (.panicked k a2)
      · cases a1
      · cases a1
  | step k _ ih =>
    intro t hs
    cases k with
    | returned k l =>
      rcases l.same hs with ⟨a1, _⟩ | ⟨g', s1, t1, c', a1, a2, a3⟩ | ⟨g', s1, t1, c', a1, a2, a3⟩
      · cases a1
      · cases a1; exact .step (.returned k a2) (ih t1 a3)
      · cases a1
    | last k l =>
      rcases l.same hs with ⟨a1, _⟩ | ⟨g', s1, t1, c', a1, a2, a3⟩ | ⟨g', s1, t1, c', a1, a2, a3⟩
      · cases a1
      · cases a1
      · cases a1; exact .step (.last k a2) (ih t1 a3)

theorem start_same {r r' : Reader} (h : SameStream r r') : Same (start r).packets (start r').packets := by
  show PacketDecoder.flat (PacketDecoder.new r) = PacketDecoder.flat (PacketDecoder.new r')
  simp only [PacketDecoder.new, PacketDecoder.flat, Reader.flat_eq h]

end Lazy

/-- C100 for `filter` with time bounds, call by call: also for inputs that go on after their end -/
theorem C100_timed (b : Build) (r r' : Reader) (h : SameStream r r') (items : List Filter.Item) (ends : Bool) (hp : Lazy.PacketsWithTimes b r items ends) :
    Lazy.PacketsWithTimes b r' items ends := by
  obtain ⟨gs, e, h1, h2, h3⟩ := hp
  exact ⟨gs, e, h1.same _ (Lazy.start_same h), h2, h3⟩

/-- C100 for the pointers of a merged file, call by call -/
theorem C100_pointers {Path : Type} [DecidableEq Path] (b : Build) (τ : Epoch → Int) (m : Merger Path) (path : Path) (c : List U8) (r r' : Reader) (h : SameStream r r')
    (o : Option (List (Ptr Path))) (hp : Lazy.Pointers b τ m path ⟨c, r⟩ o) : Lazy.Pointers b τ m path ⟨c, r'⟩ o := by
  obtain ⟨gs, e, h1, h2⟩ := hp
  exact ⟨gs, e, h1.same _ (Lazy.start_same h), h2⟩

end Ccsds
