import Verif.Model.Crash
import Verif.Props.WritesOnly
import Verif.Props.Streaming
import Verif.Props.Filter
import Verif.Props.RsStage
import Verif.Props.MergeCommand
/-!
# C101: a command that is killed leaves a beginning of its output
-/
namespace Ccsds
open Spec

/-! ## Reading what a killed command left -/

theorem readable_aux (ps : List Packet) : ∀ (part whole : List U8) (r r0 : Reader) (o : Nat) (s0 : PacketDecoder), part <+: whole → r.Delivers part →
    r0.Delivers whole → Collects PacketDecoder.next ⟨r0, o⟩ (ps.map .ok) (some s0) →
    ∃ qs s, Collects PacketDecoder.next ⟨r, o⟩ (qs.map .ok) (some s) ∧ qs <+: ps := by
  induction ps with
  | nil =>
    intro part whole r r0 o s0 hp hr hr0 h
    obtain ⟨t, rfl⟩ := hp
    by_cases h6 : 6 ≤ part.length ∧ 65536 < packetLen part
    · have := next_panic hr0 o (by rw [List.length_append]; omega) (by rw [packetLen_append _ _ h6.1]; exact h6.2)
      cases h with
      | done h => rw [this] at h; cases h
    · by_cases hl : part.length < packetLen part
      · exact ⟨[], _, .done (next_none hr o hl (by omega)), List.nil_prefix⟩
      · have hge := packetLen_ge part
        have h7 : 6 ≤ part.length := by omega
        obtain ⟨hd, r', e1, e2, e3⟩ := next_complete hr0 o (by rw [packetLen_append _ _ h7, List.length_append]; omega) (by rw [packetLen_append _ _ h7]; omega)
        cases h with
        | done h => rw [e3] at h; cases h
  | cons p ps ih =>
    intro part whole r r0 o s0 hp hr hr0 h
    obtain ⟨t, rfl⟩ := hp
    by_cases h6 : 6 ≤ part.length ∧ 65536 < packetLen part
    · have := next_panic hr0 o (by rw [List.length_append]; omega) (by rw [packetLen_append _ _ h6.1]; exact h6.2)
      cases h with
      | step h _ => rw [this] at h; cases h
    · by_cases hl : part.length < packetLen part
      · exact ⟨[], _, .done (next_none hr o hl (by omega)), List.nil_prefix⟩
      · have hge := packetLen_ge part
        have h7 : 6 ≤ part.length := by omega
        have hpl := packetLen_append part t h7
        obtain ⟨hd, r', e1, e2, e3⟩ := next_complete hr0 o (by rw [hpl, List.length_append]; omega) (by rw [hpl]; omega)
        obtain ⟨hd', r1, f1, f2, f3⟩ := next_complete hr o (by omega) (by omega)
        have hdd : hd = hd' := by
          have : PrimaryHeader.decode (part ++ t) = PrimaryHeader.decode part := C01_prefix _ _ (by rw [List.length_append]; omega)
            (by rw [List.take_append_of_le_length h7])
          rw [this, f1] at e1
          cases e1
          rfl
        cases h with
        | step h h' =>
          rw [e3] at h
          cases h
          rw [hpl] at e2 h'
          obtain ⟨qs, s, c1, c2⟩ := ih (part.drop (packetLen part)) ((part ++ t).drop (packetLen part)) r1 r' _ _
            (by rw [List.drop_append_of_le_length (by omega)]; exact List.prefix_append _ _) f2 e2 h'
          refine ⟨_ :: qs, s, .step f3 c1, ?_⟩
          rw [hpl, List.take_append_of_le_length (by omega), hdd]
          exact (List.prefix_cons_inj _).2 c2

/-- C101: whatever number of bytes is missing at the end of a packet file, the packets that can be read from it are the first packets of the file. -/
theorem C101_readable (part whole : List U8) (hp : part <+: whole) (r r0 : Reader) (hr : r.Delivers part) (hr0 : r0.Delivers whole) (ps : List Packet)
    (h : Decodes r0 ps) : ∃ qs, Decodes r qs ∧ qs <+: ps := by
  obtain ⟨s0, h⟩ := h
  obtain ⟨qs, s, h1, h2⟩ := readable_aux ps part whole r r0 0 s0 hp hr hr0 h
  exact ⟨qs, ⟨s, h1⟩, h2⟩

/-! ## filter -/

theorem loop_head (l : List Packet) : ∀ (g0 g : PacketGroup), g0.packets ≠ [] → PacketGroupIter.loop l (some g0) = .inr (some g) →
    g.packets.head? = g0.packets.head? := by
  induction l with
  | nil => intro g0 g _ h; cases h; rfl
  | cons p l ih =>
    intro g0 g h0 h
    unfold PacketGroupIter.loop at h
    split at h
    · cases h
    · rw [ih _ _ (by simp) h]
      simp only [List.head?_append]
      cases hh : g0.packets with
      | nil => exact absurd hh h0
      | cons a l => rfl

/-- A standalone packet is handed out whatever follows. -/
theorem standalone_ext {s s' : PacketGroupIter} {g : PacketGroup} (h : PacketGroupIter.next s = .ret (some (.ok g), s'))
    (hs : (g.packets.head?.map Packet.isStandalone).getD false = true) (more : List Packet) :
    PacketGroupIter.next { s with packets := s.packets ++ more } = .ret (some (.ok g), { s' with packets := s'.packets ++ more }) := by
  unfold PacketGroupIter.next at h ⊢
  split at h
  · cases h
  · rename_i hd
    simp only [hd, Bool.false_eq_true, if_false]
    cases hl : PacketGroupIter.loop (s.cached.toList ++ s.packets) none with
    | inl y =>
      obtain ⟨o, s1⟩ := y
      rw [hl] at h
      have := PacketGroupIter.loop_append more _ _ _ _ hl
      rw [List.append_assoc] at this
      rw [this]
      cases o with
      | none => cases h
      | some g => cases h; rfl
    | inr o =>
      rw [hl] at h
      cases o with
      | none => cases h
      | some g' =>
        cases h
        exfalso
        generalize s.cached.toList ++ s.packets = l at hl
        cases l with
        | nil => cases hl
        | cons p l =>
          unfold PacketGroupIter.loop at hl
          split at hl
          · cases hl
          · rename_i hst
            rw [loop_head l _ _ (by simp) hl] at hs
            exact hst (by simpa using hs)

/-- The groups that are handed out before the packet iterator goes on are groups whatever comes after. -/
theorem beforePanic_ext (ps more : List Packet) (gs hs : List PacketGroup) (h : GroupsOf ps gs) (h' : GroupsOf (ps ++ more) hs) :
    Filter.beforePanic gs <+: hs := by
  obtain ⟨t, h⟩ := h
  obtain ⟨t', h'⟩ := h'
  have key : ∀ (gs : List PacketGroup) (s0 : PacketGroupIter), Collects PacketGroupIter.next s0 (gs.map .ok) (some t) →
      ∃ s', Takes PacketGroupIter.next { s0 with packets := s0.packets ++ more } ((Filter.beforePanic gs).map .ok) s' := by
    intro gs
    induction gs with
    | nil => intro s0 _; exact ⟨_, .nil⟩
    | cons g gs ih =>
      intro s0 h
      cases h with
      | @step _ s1 _ _ _ h1 h2 =>
        cases gs with
        | nil =>
          unfold Filter.beforePanic
          simp only [List.getLast?_singleton]
          split
          · rename_i hst
            exact ⟨_, .cons (standalone_ext h1 hst more) .nil⟩
          · exact ⟨_, .nil⟩
        | cons g' gs =>
          obtain ⟨s', hs'⟩ := ih s1 h2
          have hb : Filter.beforePanic (g :: g' :: gs) = g :: Filter.beforePanic (g' :: gs) := by
            unfold Filter.beforePanic
            rw [List.getLast?_cons_cons]
            cases hh : (g' :: gs).getLast? with
            | none => simp at hh
            | some x => simp only; split <;> rfl
          rw [hb]
          cases h2 with
          | step h3 _ => exact ⟨s', .cons (groups_ext h1 h3 more) hs'⟩
  obtain ⟨s', hs'⟩ := key gs _ h
  have := hs'.prefix h'
  rw [List.prefix_iff_eq_take, List.length_map, ← List.map_take] at this
  rw [List.prefix_iff_eq_take]
  exact List.map_inj_right (fun a b h => by cases h; rfl) |>.1 this

namespace Filter

theorem timedAll_prefix (b : Build) (gs more : List PacketGroup) : (timedAll b gs).1 <+: (timedAll b (gs ++ more)).1 := by
  induction gs with
  | nil => exact List.nil_prefix
  | cons g gs ih =>
    simp only [List.cons_append, timedAll]
    cases timed b g with
    | panic => exact List.prefix_refl _
    | ret o =>
      cases o with
      | none => exact ih
      | some i => exact (List.prefix_cons_inj _).2 ih

theorem oks_prefix {α : Type} {as bs : List (Except Error α)} (h : as <+: bs) : ∃ t, oks bs = oks as ++ t := by
  obtain ⟨t, rfl⟩ := h
  exact ⟨oks t, by unfold oks; exact List.filterMap_append⟩

/-- What the loop has got at some moment is the beginning of all it gets. -/
theorem soFar_prefix (b : Build) (r : Reader) (timed ends : Bool) (items all : List Item) (h : ItemsSoFar b r timed items)
    (hall : if timed then PacketsWithTimes b r all true else PacketsUntimed r all ends) : items <+: all := by
  cases h with
  | @untimed ps t h1 h2 =>
    subst h1
    obtain ⟨qs, e, k1, k2, _⟩ := hall
    subst k2
    exact (h2.prefix k1).map _
  | @timed pitems t gitems s h1 h2 h3 =>
    subst h1
    obtain ⟨qitems, e, k1, hitems, u, k2, k3⟩ := hall
    obtain ⟨more, hm⟩ := oks_prefix (h2.prefix k1)
    cases e with
    | none => cases k3.1
    | some e =>
      simp only at k3
      obtain ⟨gs, t1, c1, _⟩ := C11_partition (oks pitems)
      obtain ⟨hs, t2, c2, _⟩ := C11_partition (oks qitems)
      obtain ⟨rfl, _⟩ := h3.unique c1
      obtain ⟨rfl, _⟩ := k2.unique c2
      rw [Merger.oks_map_ok] at k3 ⊢
      rw [hm] at c2
      obtain ⟨rest, hr⟩ := beforePanic_ext (oks pitems) more gs hs ⟨_, c1⟩ ⟨_, c2⟩
      have := timedAll_prefix b (beforePanic gs) rest
      rw [hr, k3] at this
      exact this
  | @all items ends' h1 h2 =>
    subst h1
    obtain ⟨pitems, e, k1, gitems, u, k2, k3⟩ := h2
    obtain ⟨qitems, e', l1, hitems, u', l2, l3⟩ := hall
    obtain ⟨rfl, rfl⟩ := k1.unique l1
    obtain ⟨rfl, _⟩ := k2.unique l2
    cases e with
    | none => cases l3.1
    | some e =>
      simp only at k3 l3
      rw [k3] at l3
      cases l3
      exact List.prefix_refl _

theorem writes_prefix (τ : Epoch → Int) (incl excl : List U16) (before after : Option Epoch) {items all : List Item} (h : items <+: all) :
    (writes τ incl excl before after items).flatten <+: (writes τ incl excl before after all).flatten := by
  obtain ⟨t, rfl⟩ := h
  unfold writes
  rw [List.filter_append, List.map_append, List.flatten_append]
  exact List.prefix_append _ _

end Filter

namespace Cmd
variable {Path : Type} [DecidableEq Path]

/-- A finished run is a moment of a run. -/
theorem filterAt_end (b : Build) (τ : Epoch → Int) (ud : Char → Bool) (sched : Path → List U8 → Reader) (a : FilterArgs Path) (fs fs' : FS Path) (s : List WEv) (st : Status)
    (h : FilterRunW b τ ud sched a fs s st fs') : FilterAt b τ ud sched a fs s fs' := by
  cases h with
  | exists_ | noInput | createFails => exact .before
  | badArgs h1 h2 => exact .created h1 h2
  | noFilters h1 h2 => exact .created h1 h2
  | @ran content i e items ends ok w h1 h2 h3 h4 h5 h6 h7 h8 =>
    refine .writing h1 h2 h3 h4 h5 h6 (items := items) ?_ (by rw [h8]; exact List.prefix_refl _)
    cases ht : (a.before.isSome || a.after.isSome)
    · rw [ht] at h7
      obtain ⟨ps, e, k1, k2, _⟩ := h7
      obtain ⟨t, k3⟩ := k1.takes
      subst k2
      exact .untimed rfl k3
    · rw [ht] at h7
      exact .all rfl h7

end Cmd

section
open Cmd
variable {Path : Type} [DecidableEq Path]

/-- C101, `ccsds filter`: at every moment of a run, so wherever it is killed, no file but the output has changed; and the output is as it was, or holds the beginning of what
every run that comes to its end leaves in it. -/
theorem C101_filter (b : Build) (τ : Epoch → Int) (ud : Char → Bool) (sched : Path → List U8 → Reader) (a : FilterArgs Path) (fs fs' : FS Path) (s : List WEv)
    (h : FilterAt b τ ud sched a fs s fs') :
    (∀ p, p ≠ a.output → fs' p = fs p) ∧
    (fs' = fs ∨ ((a.clobber = true ∨ fs a.output = none) ∧ ∃ part, fs' a.output = some part ∧
      ∀ fs0, FilterRun b τ ud sched a fs .ok fs0 → ∃ whole, fs0 a.output = some whole ∧ part <+: whole)) := by
  have put : ∀ (c : List U8), (∀ p, p ≠ a.output → (fs.put a.output c) p = fs p) ∧ (fs.put a.output c) a.output = some c :=
    fun c => ⟨fun p hp => by simp [FS.put, hp], by simp [FS.put]⟩
  cases h with
  | before => exact ⟨fun _ _ => rfl, .inl rfl⟩
  | created h1 h2 =>
    refine ⟨(put _).1, .inr ⟨h1, [], (put _).2, fun fs0 h0 => ?_⟩⟩
    obtain ⟨whole, hw⟩ := Option.ne_none_iff_exists'.1 ((C62_filter b τ ud sched a fs fs0 .ok h0).2.2 rfl)
    exact ⟨whole, hw, List.nil_prefix⟩
  | @writing content i e items part h1 h2 h3 h4 h5 h6 h7 h8 =>
    refine ⟨(put _).1, .inr ⟨h1, part, (put _).2, fun fs0 h0 => ?_⟩⟩
    generalize hst : Status.ok = st at h0
    cases h0 with
    | exists_ | noInput | createFails | badArgs => cases hst
    | @ran content' i' e' res k1 k2 k3 k4 k5 k6 =>
      rw [h3] at k3; cases k3
      rw [h4] at k4; cases k4
      rw [h5] at k5; cases k5
      refine ⟨_, (put _).2, ?_⟩
      cases k6 with
      | noFilters => cases hst
      | @run all ends l1 l2 =>
        cases ends
        · cases hst
        · have hpre := Filter.soFar_prefix b _ _ true items all h7 (by
            split at l2
            · rename_i hb; rw [if_pos hb]; exact l2
            · rename_i hb; rw [if_neg hb]; exact l2)
          exact h8.trans ((filter_loopW τ _ _ _ _ items s).1.trans (Filter.writes_prefix τ _ _ _ _ hpre))


/-! ## merge -/

/-- A finished run is a moment of a run. -/
theorem Cmd.mergeAt_end (b : Build) (τ : Epoch → Int) (micros : Epoch → Nat) (sched : Path → List U8 → Reader) (a : MergeArgs Path) (fs fs' : FS Path) (s : List WEv)
    (st : Status) (h : MergeRunW b τ micros sched a fs s st fs') : MergeAt b τ micros sched a fs s fs' := by
  cases h with
  | exists_ | badName | createFails => exact .before
  | noInputs h1 h2 => exact .created h1 h2
  | ran h1 h2 h3 hm => exact .writing h1 h2 h3 hm (List.prefix_refl _)

/-- C101, `ccsds merge`: at every moment of a run no file but the output has changed; and the output is as it was, or is empty, or holds the beginning of what a run that
succeeds leaves in it. -/
theorem C101_merge (b : Build) (τ : Epoch → Int) (micros : Epoch → Nat) (sched : Path → List U8 → Reader) (hs : Faithful sched) (a : MergeArgs Path) (fs fs' : FS Path)
    (s : List WEv) (h : MergeAt b τ micros sched a fs s fs') :
    (∀ p, p ≠ a.output → fs' p = fs p) ∧
    (fs' = fs ∨ ((a.clobber = true ∨ fs a.output = none) ∧ (fs' a.output = some [] ∨
      ∃ part fs0 whole, fs' a.output = some part ∧ MergeRun b τ micros sched a fs .ok fs0 ∧ fs0 a.output = some whole ∧ part <+: whole))) := by
  have put : ∀ (c : List U8), (∀ p, p ≠ a.output → (fs.put a.output c) p = fs p) ∧ (fs.put a.output c) a.output = some c :=
    fun c => ⟨fun p hp => by simp [FS.put, hp], by simp [FS.put]⟩
  cases h with
  | before => exact ⟨fun _ _ => rfl, .inl rfl⟩
  | created h1 h2 => exact ⟨(put _).1, .inr ⟨h1, .inl (put _).2⟩⟩
  | @writing ord res part h1 h2 h3 hm hp =>
    refine ⟨(put _).1, .inr ⟨h1, ?_⟩⟩
    by_cases hne : part = []
    · subst hne; exact .inl (put _).2
    · right
      cases hm with
      | openFails => exact absurd (List.prefix_nil.1 hp) hne
      | panicked => exact absurd (List.prefix_nil.1 hp) hne
      | @finished visit idx idx' h4 h5 h6 h7 =>
        have hpaths := index_paths h6 (by simp) idx rfl
        have hnp := emit_no_panic ((fs.put a.output []).files sched) (idx'.mergeSort (Ptr.le τ))
          (fun q hq => hpaths q (h7.mem_iff.1 (List.mem_mergeSort.1 hq))) []
        have hrun := Merger.Merges.finished h4 h5 h6 h7
        have hfin : ∃ w0, Merger.emit ((fs.put a.output []).files sched) (idx'.mergeSort (Ptr.le τ)) [] = .ok w0 ∧ part <+: w0.flatten := by
          have noErr : ∀ w0, Merger.emit ((fs.put a.output []).files sched) (idx'.mergeSort (Ptr.le τ)) [] = .error w0 → False := by
            intro w0 e
            rw [e] at hrun
            obtain ⟨_, p, hp, hf⟩ := C21_error b τ _ _ (files_readable _ sched hs) w0 hrun
            exact h4 p hp hf
          rcases merge_emitW ((fs.put a.output []).files sched) (idx'.mergeSort (Ptr.le τ)) s [] with e | ⟨_, w, e, ⟨w0, e0, hw⟩ | e0⟩
          · rw [e] at hp
            cases he : Merger.emit ((fs.put a.output []).files sched) (idx'.mergeSort (Ptr.le τ)) [] with
            | panic => exact absurd he hnp
            | error w0 => exact absurd (noErr w0 he) id
            | ok w0 => rw [he] at hp; exact ⟨w0, rfl, hp⟩
          · rw [e] at hp
            rcases e0 with e0 | e0
            · exact ⟨w0, e0, hp.trans hw⟩
            · exact absurd (noErr w0 e0) id
          · exact absurd e0 hnp
        obtain ⟨w0, e0, hpre⟩ := hfin
        rw [e0] at hrun
        exact ⟨part, _, w0.flatten, (put _).2, .ran h1 h2 h3 hrun, (put _).2, hpre⟩

/-! ## framing -/

theorem Pipeline.soFar_prefix {b : Build} {derand : Bool} {s : Pipeline.State} {as : List Frame} (h : Pipeline.SoFar b derand s as) :
    ∀ {bs : List Frame} {e : Option Pipeline.State}, Pipeline.Yields b derand s bs e → as <+: bs := by
  induction h with
  | nil => intros; exact List.nil_prefix
  | frame h1 h2 _ ih =>
    intro bs e k
    cases k with
    | done k => have := Pipeline.pulls_unique h1 k; simp_all
    | stop k k2 => obtain ⟨a, rfl⟩ := Pipeline.pulls_unique h1 k; simp only [Option.some.injEq] at a; subst a; simp_all
    | panicked k k2 => obtain ⟨a, rfl⟩ := Pipeline.pulls_unique h1 k; simp only [Option.some.injEq] at a; subst a; simp_all
    | frame k k2 k3 =>
      obtain ⟨a, rfl⟩ := Pipeline.pulls_unique h1 k
      simp only [Option.some.injEq] at a
      subst a
      rw [h2] at k2
      simp only [Outcome.ret.injEq, Prod.mk.injEq, Option.some.injEq] at k2
      obtain ⟨rfl, rfl⟩ := k2
      exact (List.prefix_cons_inj _).2 (ih k3)

theorem Pipeline.soFar_of_yields {b : Build} {derand : Bool} {s : Pipeline.State} {as : List Frame} {e : Option Pipeline.State} (h : Pipeline.Yields b derand s as e) :
    Pipeline.SoFar b derand s as := by
  induction h with
  | done | stop | panicked => exact .nil
  | frame h1 h2 _ ih => exact .frame h1 h2 ih

namespace Framing

theorem soFar_of_source {b : Build} {k : Codec} {a : Args} {workers : Nat} {r : Reader} {frames : List Frame} {e : SourceEnd} (h : Source b k a workers r frames e) :
    FramesSoFar b k a workers r frames := by
  cases h with
  | plain h1 h2 => obtain ⟨e, h2, _⟩ := h2; exact .plain h1 (Pipeline.soFar_of_yields h2)
  | rs h1 h2 => obtain ⟨o, p, frames, ended, k1, ⟨e, k2, _⟩, k3⟩ := h2; exact .rs h1 k1 (Pipeline.soFar_of_yields k2) k3

/-- What the loop has got at some moment is the beginning of what it gets in every run that comes to its end. -/
theorem soFar_prefix {b : Build} {k : Codec} {a : Args} {workers : Nat} {r : Reader} {frames : List Frame} (h : FramesSoFar b k a workers r frames) {sm : Summary}
    {ws : List (List U8)} (hr : Runs b k a workers r sm ws) : ∃ all, Finishes a all sm ws ∧ frames <+: all := by
  cases hr with
  | plain h1 h2 h3 =>
    refine ⟨_, h3, ?_⟩
    cases h with
    | plain _ h5 => obtain ⟨e, h2, _⟩ := h2; exact Pipeline.soFar_prefix h5 h2
    | rs h4 => rw [h1] at h4; cases h4
  | @rs il st' _ _ h1 h2 h3 h4 =>
    refine ⟨_, h4, ?_⟩
    cases h with
    | plain h5 => rw [h5] at h1; cases h1
    | @rs il2 o p fr st h5 h6 h7 h8 =>
      obtain ⟨o', p', fr', ended, k1, ⟨e, k2, _⟩, k3⟩ := h2
      rw [h6] at k1
      cases k1
      have hall := C42_none _ _ _ _ k3 h3
      obtain ⟨t, rfl⟩ := Pipeline.soFar_prefix h7 k2
      have hp := (C42_prefix _ _ _ _ h8).trans (by rw [hall, List.map_append]; exact List.prefix_append _ _ : fr.map (RS.job k o) <+: st'.got.map Outcome.ret)
      rw [List.prefix_iff_eq_take, List.length_map, ← List.map_take] at hp
      rw [List.prefix_iff_eq_take]
      exact List.map_inj_right (fun a b h => by cases h; rfl) |>.1 hp

theorem records_prefix (a : Args) {fs gs : List Frame} (h : fs <+: gs) : (records a fs).flatten <+: (records a gs).flatten := by
  obtain ⟨t, rfl⟩ := h
  unfold records wanted
  cases a.output
  · simp
  · simp only [if_true, List.filter_append, List.map_append, List.flatten_append]
    exact List.prefix_append _ _

/-- What is written for the frames got so far is the beginning of what every run that comes to its end writes. -/
theorem bytes_prefix {b : Build} {k : Codec} {a : Args} {workers : Nat} {r : Reader} {frames : List Frame} (h : FramesSoFar b k a workers r frames) (s : List WEv)
    {sm : Summary} {ws : List (List U8)} (hr : Runs b k a workers r sm ws) : (loopW a s ⟨.default, [], []⟩ [] frames).bytes <+: ws.flatten := by
  obtain ⟨all, hf, hp⟩ := soFar_prefix h hr
  have hw : ws = records a all := ((C57_summary a all).1 _ _ hf).2
  subst hw
  refine List.IsPrefix.trans ?_ (records_prefix a hp)
  obtain ⟨i1, i2, i3⟩ := framing_loopW a frames s ⟨.default, [], []⟩ [] []
  cases hl : loopW a s ⟨.default, [], []⟩ [] frames with
  | done st w => rw [(i1 _ _ hl).1]; exact List.prefix_refl _
  | failed w => obtain ⟨_, part, e, hp⟩ := i2 _ hl; rw [e]; exact hp
  | panicked w => obtain ⟨_, part, e, hp⟩ := i3 _ hl; rw [e]; exact hp

/-- All runs that come to their end have the same result. -/
theorem runs_unique {b : Build} {k : Codec} {a : Args} {workers : Nat} {r : Reader} {sm sm' : Summary} {ws ws' : List (List U8)} (h : Runs b k a workers r sm ws)
    (h' : Runs b k a workers r sm' ws') : sm = sm' ∧ ws = ws' := by
  cases h with
  | plain h1 h2 h3 =>
    cases h' with
    | rs k1 => rw [h1] at k1; cases k1
    | plain k1 k2 k3 =>
      obtain ⟨e, h2, _⟩ := h2
      obtain ⟨e', k2, _⟩ := k2
      obtain ⟨rfl, _⟩ := Pipeline.yields_unique h2 k2
      exact (C57_summary a _).2.1 _ _ _ _ h3 k3
  | @rs il st _ _ h1 h2 h3 h4 =>
    cases h' with
    | plain k1 => rw [h1] at k1; cases k1
    | @rs il' st' _ _ k1 k2 k3 k4 =>
      obtain ⟨o, p, fr, en, g1, ⟨e, g2, _⟩, g3⟩ := h2
      obtain ⟨o', p', fr', en', l1, ⟨e', l2, _⟩, l3⟩ := k2
      rw [g1] at l1
      cases l1
      obtain ⟨rfl, _⟩ := Pipeline.yields_unique g2 l2
      have := (C42_none _ _ _ _ g3 h3).trans (C42_none _ _ _ _ l3 k3).symm
      have := List.map_inj_right (fun a b h => by cases h; rfl) |>.1 this
      rw [this] at h4
      exact (C57_summary a _).2.1 _ _ _ _ h4 k4

end Framing

/-- A finished run is a moment of a run. -/
theorem Cmd.framingAt_end (b : Build) (k : Codec) (ud : Char → Bool) (parseCfg : List U8 → Option FramingConfig) (render : Framing.Summary → List U8) (workers : Nat)
    (env : Cmd.Inputs Path) (a : FramingArgs Path) (fs fs' : FS Path) (s : List WEv) (st : Status) (h : FramingCmd b k ud parseCfg render workers env a fs s st fs') :
    FramingAt b k ud parseCfg render workers env a fs s fs' := by
  cases h with
  | badArgs | noInput | badConfig | zeroLength | createFails => exact .before
  | @notFinished cfg i e r panicked w h1 h2 h3 h4 h5 h6 h7 =>
    generalize ho : (none : Option Framing.Summary) = o at h7
    cases h7 with
    | done => cases ho
    | failed g1 g2 => exact .writing h1 h2 h3 h4 h5 h6 (Framing.soFar_of_source g1) (by rw [g2]; exact List.prefix_refl _)
    | panicked g1 g2 => exact .writing h1 h2 h3 h4 h5 h6 (Framing.soFar_of_source g1) (by rw [g2]; exact List.prefix_refl _)
    | died g1 g2 => exact .writing h1 h2 h3 h4 h5 h6 (Framing.soFar_of_source g1) (by rw [g2]; exact List.prefix_refl _)
  | @finished cfg i e r sm w part ok created printed h1 h2 h3 h4 h5 h6 h7 h8 h9 h10 =>
    cases created with
    | false =>
      generalize ho : some sm = o at h7
      cases h7 with
      | failed => cases ho
      | done g1 g2 => exact .writing h1 h2 h3 h4 h5 h6 (Framing.soFar_of_source g1) (by rw [g2]; exact List.prefix_refl _)
    | true =>
      cases hs : a.summary with
      | none =>
        generalize ho : some sm = o at h7
        cases h7 with
        | failed => cases ho
        | done g1 g2 => exact .writing h1 h2 h3 h4 h5 h6 (Framing.soFar_of_source g1) (by rw [g2]; exact List.prefix_refl _)
      | some q =>
        have := FramingAt.summary (render := render) h1 h2 h3 h4 h5 h6 h7 (h8 (by simp [hs]) rfl).1
        rw [hs] at this
        exact this

/-- Two successful runs of `ccsds framing` leave the same files. -/
theorem C101_framing_unique (b : Build) (k : Codec) (ud : Char → Bool) (parseCfg : List U8 → Option FramingConfig) (render : Framing.Summary → List U8) (workers : Nat)
    (env : Cmd.Inputs Path) (a : FramingArgs Path) (fs fs1 fs2 : FS Path) (s s' : List WEv) (h1 : FramingCmd b k ud parseCfg render workers env a fs s .ok fs1)
    (h2 : FramingCmd b k ud parseCfg render workers env a fs s' .ok fs2) : fs1 = fs2 := by
  obtain ⟨i, e, cfg, r, sm, ws, a1, a2, a3, a4, a5, rfl⟩ := C78_success h1
  obtain ⟨i', e', cfg', r', sm', ws', b1, b2, b3, b4, b5, rfl⟩ := C78_success h2
  rw [a1] at b1; cases b1
  rw [a2] at b2; cases b2
  rw [a3] at b3; cases b3
  rw [a4] at b4; cases b4
  obtain ⟨rfl, rfl⟩ := Framing.runs_unique a5 b5
  rfl

/-- C101, `ccsds framing`: at every moment of a run no file but the output and the summary has changed; the output is as it was, or holds the beginning of what every successful run
leaves in it; and when the summary file has changed, the run has all its records in the output, and can succeed, and the summary file holds a beginning of what it then holds. -/
theorem C101_framing (b : Build) (k : Codec) (ud : Char → Bool) (parseCfg : List U8 → Option FramingConfig) (render : Framing.Summary → List U8) (workers : Nat)
    (env : Cmd.Inputs Path) (a : FramingArgs Path) (fs fs' : FS Path) (s : List WEv) (h : FramingAt b k ud parseCfg render workers env a fs s fs') :
    (∀ p, a.output ≠ some p → a.summary ≠ some p → fs' p = fs p) ∧
    (∀ p, a.output = some p → a.summary ≠ some p → fs' p = fs p ∨ ∃ part, fs' p = some part ∧
      ∀ s0 fs0, FramingCmd b k ud parseCfg render workers env a fs s0 .ok fs0 → ∃ whole, fs0 p = some whole ∧ part <+: whole) ∧
    (∀ p, a.output ≠ some p → a.summary = some p → fs' p = fs p ∨ ∃ fs0 part whole, FramingCmd b k ud parseCfg render workers env a fs s .ok fs0 ∧
      fs' p = some part ∧ fs0 p = some whole ∧ part <+: whole ∧ ∀ q, a.output = some q → fs' q = fs0 q) := by
  have fill_ne : ∀ (g : FS Path) (o : Option Path) (w : List U8) (p : Path), o ≠ some p → (g.fill o w) p = g p := by
    intro g o w p ho
    cases o with
    | none => rfl
    | some q =>
      simp only [FS.fill, FS.put]
      rw [if_neg]
      rintro rfl
      exact ho rfl
  have fill_eq : ∀ (g : FS Path) (w : List U8) (p : Path), (g.fill (some p) w) p = some w := by
    intro g w p
    simp [FS.fill, FS.put]
  cases h with
  | before => exact ⟨fun _ _ _ => rfl, fun _ _ _ => .inl rfl, fun _ _ _ => .inl rfl⟩
  | @writing cfg i e r frames part h1 h2 h3 h4 h5 h6 h7 h8 =>
    refine ⟨fun p ho _ => fill_ne _ _ _ _ ho, fun p ho hs => .inr ⟨part, by rw [ho]; exact fill_eq _ _ _, ?_⟩, fun p ho _ => .inl (fill_ne _ _ _ _ ho)⟩
    intro s0 fs0 h0
    obtain ⟨i', e', cfg', r', sm', ws', b1, b2, b3, b4, b5, rfl⟩ := C78_success h0
    rw [h1] at b1; cases b1
    rw [h2] at b2; cases b2
    rw [h3] at b3; cases b3
    rw [h6] at b4; cases b4
    refine ⟨ws'.flatten, ?_, h8.trans (Framing.bytes_prefix h7 s b5)⟩
    rw [fill_ne _ _ _ _ hs, ho]
    exact fill_eq _ _ _
  | @summary cfg i e r sm w part h1 h2 h3 h4 h5 h6 h7 h8 =>
    have hok : FramingCmd b k ud parseCfg render workers env a fs s .ok ((fs.fill a.output w).fill a.summary (render sm)) :=
      .finished (ok := true) (created := true) (printed := true) (part := render sm) h1 h2 h3 h4 h5 h6 h7 (fun _ _ => ⟨List.prefix_refl _, fun _ => rfl⟩) (fun _ => rfl) (fun _ => rfl)
    refine ⟨fun p ho hs => by rw [fill_ne _ _ _ _ hs, fill_ne _ _ _ _ ho], fun p ho hs => .inr ⟨w, ?_, fun s0 fs0 h0 => ⟨w, ?_, List.prefix_refl _⟩⟩, fun p ho hs =>
      .inr ⟨_, part, render sm, hok, by rw [hs]; exact fill_eq _ _ _, by rw [hs]; exact fill_eq _ _ _, h8, fun q hq => ?_⟩⟩
    · rw [fill_ne _ _ _ _ hs, ho]; exact fill_eq _ _ _
    · rw [C101_framing_unique _ _ _ _ _ _ _ _ _ _ _ _ _ h0 hok, fill_ne _ _ _ _ hs, ho]; exact fill_eq _ _ _
    · have : a.summary ≠ some q := by rintro h; rw [hs] at h; cases h; exact ho hq
      rw [fill_ne _ _ _ _ this, fill_ne _ _ _ _ this]

/-! ## Every beginning is possible -/

/-- Conversely, `filter` can be killed at any byte: every beginning of what a successful run writes can be what is left. -/
theorem C101_filter_any (b : Build) (τ : Epoch → Int) (ud : Char → Bool) (sched : Path → List U8 → Reader) (a : FilterArgs Path) (fs fs0 : FS Path) (s : List WEv)
    (h : FilterRunW b τ ud sched a fs s .ok fs0) (part whole : List U8) (hw : fs0 a.output = some whole) (hp : part <+: whole) :
    ∃ fs', FilterAt b τ ud sched a fs s fs' ∧ fs' a.output = some part := by
  have put : ∀ (c : List U8), (fs.put a.output c) a.output = some c := fun c => by simp [FS.put]
  generalize hst : Status.ok = st at h
  cases h with
  | exists_ | noInput | createFails | badArgs | noFilters => cases hst
  | @ran content i e items ends ok w h1 h2 h3 h4 h5 h6 h7 h8 =>
    rw [put] at hw
    cases hw
    refine ⟨_, .writing h1 h2 h3 h4 h5 h6 (items := items) ?_ (by rw [h8]; exact hp), put _⟩
    cases ht : (a.before.isSome || a.after.isSome)
    · rw [ht] at h7
      obtain ⟨ps, e, k1, k2, _⟩ := h7
      obtain ⟨t, k3⟩ := k1.takes
      subst k2
      exact .untimed rfl k3
    · rw [ht] at h7
      exact .all rfl h7

/-- The same for `merge`. -/
theorem C101_merge_any (b : Build) (τ : Epoch → Int) (micros : Epoch → Nat) (sched : Path → List U8 → Reader) (a : MergeArgs Path) (fs fs0 : FS Path) (s : List WEv)
    (h : MergeRunW b τ micros sched a fs s .ok fs0) (part whole : List U8) (hw : fs0 a.output = some whole) (hp : part <+: whole) :
    ∃ fs', MergeAt b τ micros sched a fs s fs' ∧ fs' a.output = some part := by
  have put : ∀ (c : List U8), (fs.put a.output c) a.output = some c := fun c => by simp [FS.put]
  generalize hst : Status.ok = st at h
  cases h with
  | exists_ | badName | createFails | noInputs => cases hst
  | ran h1 h2 h3 hm =>
    rw [put] at hw
    cases hw
    exact ⟨_, .writing h1 h2 h3 hm hp, put _⟩

/-- The same for the output of `framing`, which is complete before the summary file is touched. -/
theorem C101_framing_any (b : Build) (k : Codec) (ud : Char → Bool) (parseCfg : List U8 → Option FramingConfig) (render : Framing.Summary → List U8) (workers : Nat)
    (env : Cmd.Inputs Path) (a : FramingArgs Path) (fs fs0 : FS Path) (s : List WEv) (out : Path) (ho : a.output = some out) (hns : a.summary ≠ some out)
    (h : FramingCmd b k ud parseCfg render workers env a fs s .ok fs0) (part whole : List U8) (hw : fs0 out = some whole) (hp : part <+: whole) :
    ∃ fs', FramingAt b k ud parseCfg render workers env a fs s fs' ∧ fs' out = some part ∧ ∀ p, p ≠ out → fs' p = fs p := by
  have put : ∀ (c : List U8), (fs.fill a.output c) out = some c := fun c => by simp [FS.fill, FS.put, ho]
  have put' : ∀ (c : List U8) (p : Path), p ≠ out → (fs.fill a.output c) p = fs p := fun c p hne => by simp [FS.fill, FS.put, ho, hne]
  generalize hst : Status.ok = st at h
  cases h with
  | badArgs | noInput | badConfig | zeroLength | createFails => cases hst
  | @notFinished cfg i e r panicked w => cases panicked <;> cases hst
  | @finished cfg i e r sm w part' ok created printed h1 h2 h3 h4 h5 h6 h7 h8 h9 h10 =>
    have : whole = w := by
      split at hw
      · have hf : ((fs.fill a.output w).fill a.summary part') out = (fs.fill a.output w) out := by
          cases hs : a.summary with
          | none => rfl
          | some q =>
            simp only [FS.fill, FS.put]
            rw [if_neg]
            rintro rfl
            exact hns hs
        rw [hf, put] at hw
        cases hw
        rfl
      · rw [put] at hw
        cases hw
        rfl
    subst this
    generalize hx : some sm = o at h7
    cases h7 with
    | failed => cases hx
    | done g1 g2 => exact ⟨_, .writing h1 h2 h3 h4 h5 h6 (Framing.soFar_of_source g1) (by rw [g2]; exact hp), put _, put' _⟩

end

open CommandEx in
/-- A run of `filter` that would have written a packet of 14 bytes, killed after five of them. -/
example (b : Build) : ∃ fs', Cmd.FilterAt b FilterEx.tau RangesEx.ascii sched fine disk [] fs' ∧ fs' 2 = some (FilterEx.early.take 5) := by
  obtain ⟨st, fs', hr, hc⟩ := C77_filter_total b _ _ _ _ _ _ [] _ (run_fine b)
  rcases hc.status with ⟨rfl, rfl⟩ | ⟨_, hn, _⟩
  · exact C101_filter_any b _ _ _ _ _ _ _ hr _ FilterEx.early (by decide +kernel) (List.take_prefix _ _)
  · exact absurd (by simp [Healthy]) hn

/-- A run of `merge` with two packets, killed in the second. -/
example (b : Build) : ∃ fs', Cmd.MergeAt b MergeEx.tau MergeCmdEx.micros CommandEx.sched MergeCmdEx.args MergeCmdEx.disk [] fs' ∧
    fs' 1 = some ((MergeCmdEx.bytes 0x35#8 ++ MergeCmdEx.bytes 0x3a#8).take 20) := by
  obtain ⟨st, fs', hr, hc⟩ := C77_merge_total b _ _ _ _ _ _ [] _ (MergeCmdEx.run b)
  rcases hc.status with ⟨rfl, rfl⟩ | ⟨_, hn, _⟩
  · exact C101_merge_any b _ _ _ _ _ _ _ hr _ _ (by simp [Cmd.FS.put, MergeCmdEx.args]) (List.take_prefix _ _)
  · exact absurd (by simp [Healthy]) hn

/-- A run of `framing` with two frames of eight bytes, killed in the second: eleven bytes are in the output. -/
example (b : Build) (k : Codec) : ∃ fs' w, Cmd.FramingAt b k (fun _ => false) (fun _ => none) (fun _ => []) 1 FramingCmdEx.env (FramingCmdEx.args 2) FramingCmdEx.disk [] fs' ∧
    fs' 2 = some w ∧ w.length = 11 := by
  obtain ⟨w, hl, hr⟩ := FramingCmdEx.run b k (fun _ => []) 2 [] (by simp [Healthy])
  obtain ⟨fs', h1, h2, _⟩ := C101_framing_any b k _ _ _ _ _ _ _ _ _ 2 rfl (by simp [FramingCmdEx.args]) hr (w.take 11) w (by simp [Cmd.FS.put]) (List.take_prefix _ _)
  exact ⟨fs', _, h1, h2, by rw [List.length_take, hl]; rfl⟩

end Ccsds
