import Verif.Model.SpacePacket
import Verif.Model.Packets
import Verif.Model.Sync
/-! Every stage is incremental: more input at the end does not change what was yielded before. -/
namespace Ccsds

theorem Takes.simulate {S α : Type} {next : S → Outcome (Option α × S)} (f : S → S)
    (hf : ∀ s a s', next s = .ret (some a, s') → next (f s) = .ret (some a, f s')) {s t : S} {items : List α} (h : Takes next s items t) :
    Takes next (f s) items (f t) := by
  induction h with
  | nil => exact .nil
  | cons h _ ih => exact .cons (hf _ _ _ h) ih

theorem Takes.prefix {S α : Type} {next : S → Outcome (Option α × S)} {s t : S} {items all : List α} {e : Option S} (h : Takes next s items t)
    (hc : Collects next s all e) : items <+: all := by
  induction h generalizing all with
  | nil => simp
  | cons h _ ih =>
    cases hc with
    | done k => rw [h] at k; cases k
    | panicked k => rw [h] at k; cases k
    | step k hc =>
      rw [h] at k
      cases k
      exact (List.prefix_cons_inj _).2 (ih hc)

theorem Collects.takes {S α : Type} {next : S → Outcome (Option α × S)} {s : S} {items : List α} {e : Option S} (h : Collects next s items e) :
    ∃ t, Takes next s items t := by
  induction h with
  | done => exact ⟨_, .nil⟩
  | panicked => exact ⟨_, .nil⟩
  | step h _ ih => obtain ⟨t, ht⟩ := ih; exact ⟨t, .cons h ht⟩

namespace Reader

/-- The same reader with more to come: after its script, `more`, and then the tail `t`. -/
def andThen (more : List Ev) (t : Tail) (r : Reader) : Reader := ⟨r.script ++ more, t⟩

theorem readExactGo_append (more : List Ev) (t : Tail) : ∀ (evs : List Ev) (n : Nat) (acc : List U8) (k : Option IoKind) (got : List U8) (rest : List Ev),
    readExactGo .eof evs n acc = (k, got, rest) → k ≠ some .unexpectedEof → readExactGo t (evs ++ more) n acc = (k, got, rest ++ more) := by
  intro evs
  induction evs with
  | nil =>
    intro n acc k got rest h hk
    cases n with
    | zero =>
      simp only [readExactGo, Prod.mk.injEq] at h
      obtain ⟨rfl, rfl, rfl⟩ := h
      cases more <;> simp [readExactGo]
    | succ n =>
      simp only [readExactGo, Prod.mk.injEq] at h
      exact absurd h.1.symm hk
  | cons e evs ih =>
    intro n acc k got rest h hk
    cases n with
    | zero =>
      have : ∀ l, readExactGo .eof l 0 acc = (none, acc, l) := by intro l; cases l <;> simp [readExactGo]
      rw [this] at h
      simp only [Prod.mk.injEq] at h
      obtain ⟨rfl, rfl, rfl⟩ := h
      simp [readExactGo]
    | succ n =>
      cases e with
      | err j =>
        simp only [readExactGo, List.cons_append] at h ⊢
        split at h
        · rename_i hi
          rw [if_pos hi]
          exact ih _ _ _ _ _ h hk
        · rename_i hi
          rw [if_neg hi]
          simp only [Prod.mk.injEq] at h
          obtain ⟨rfl, rfl, rfl⟩ := h
          rfl
      | data bs =>
        simp only [readExactGo, List.cons_append] at h ⊢
        split at h
        · simp only [Prod.mk.injEq] at h
          exact absurd h.1.symm hk
        · rename_i hn
          rw [if_neg hn]
          split at h
          · rename_i hl
            rw [if_pos hl]
            exact ih _ _ _ _ _ h hk
          · rename_i hl
            rw [if_neg hl]
            simp only [Prod.mk.injEq] at h
            obtain ⟨rfl, rfl, rfl⟩ := h
            rfl

theorem readExact_andThen {r r' : Reader} {n : Nat} {k : Option IoKind} {got : List U8} (ht : r.tail = .eof) (h : r.readExact n = (k, got, r'))
    (hk : k ≠ some .unexpectedEof) (more : List Ev) (t : Tail) :
    (r.andThen more t).readExact n = (k, got, r'.andThen more t) ∧ r'.tail = .eof := by
  unfold readExact at h ⊢
  rw [ht] at h
  cases hg : readExactGo .eof r.script n [] with
  | mk e y =>
    obtain ⟨g, rest⟩ := y
    rw [hg] at h
    simp only [Prod.mk.injEq] at h
    obtain ⟨rfl, rfl, rfl⟩ := h
    simp only [andThen, readExactGo_append more t _ _ _ _ _ _ hg hk, ht, and_self]

end Reader

theorem Packet.read_andThen {r r' : Reader} {res : Except Error Packet} (ht : r.tail = .eof) (h : Packet.read r = .ret (res, r'))
    (hk : res ≠ .error (.io .unexpectedEof)) (more : List Ev) (t : Tail) :
    Packet.read (r.andThen more t) = .ret (res, r'.andThen more t) ∧ r'.tail = .eof := by
  unfold Packet.read at h ⊢
  cases h1 : r.readExact PrimaryHeader.LEN with
  | mk k y =>
    obtain ⟨hdr, r1⟩ := y
    rw [h1] at h
    cases k with
    | some k =>
      simp only [Outcome.ret.injEq, Prod.mk.injEq] at h
      obtain ⟨rfl, rfl⟩ := h
      obtain ⟨e1, e2⟩ := Reader.readExact_andThen ht h1 (by intro e; cases e; exact hk rfl) more t
      rw [e1]; exact ⟨rfl, e2⟩
    | none =>
      obtain ⟨e1, e2⟩ := Reader.readExact_andThen ht h1 (by simp) more t
      rw [e1]
      simp only at h ⊢
      cases hd : PrimaryHeader.decode hdr with
      | error e =>
        rw [hd] at h
        simp only [Outcome.ret.injEq, Prod.mk.injEq] at h
        obtain ⟨rfl, rfl⟩ := h
        exact ⟨rfl, e2⟩
      | ok ph =>
        rw [hd] at h
        simp only at h ⊢
        split at h
        · rename_i hle
          rw [if_pos hle]
          cases h2 : r1.readExact (PrimaryHeader.LEN + (ph.lenMinus1.toNat + 1) - PrimaryHeader.LEN) with
          | mk k y =>
            obtain ⟨body, r2⟩ := y
            rw [h2] at h
            cases k with
            | some k =>
              simp only [Outcome.ret.injEq, Prod.mk.injEq] at h
              obtain ⟨rfl, rfl⟩ := h
              obtain ⟨e3, e4⟩ := Reader.readExact_andThen e2 h2 (by intro e; cases e; exact hk rfl) more t
              rw [e3]; exact ⟨rfl, e4⟩
            | none =>
              simp only [Outcome.ret.injEq, Prod.mk.injEq] at h
              obtain ⟨rfl, rfl⟩ := h
              obtain ⟨e3, e4⟩ := Reader.readExact_andThen e2 h2 (by simp) more t
              rw [e3]; exact ⟨rfl, e4⟩
        · cases h

theorem PacketDecoder.next_andThen {s s' : PacketDecoder} {a : Except Error Packet} (ht : s.reader.tail = .eof)
    (h : PacketDecoder.next s = .ret (some a, s')) (more : List Ev) (t : Tail) :
    PacketDecoder.next ⟨s.reader.andThen more t, s.offset⟩ = .ret (some a, ⟨s'.reader.andThen more t, s'.offset⟩) ∧ s'.reader.tail = .eof := by
  unfold PacketDecoder.next at h ⊢
  cases hr : Packet.read s.reader with
  | panic => rw [hr] at h; cases h
  | ret y =>
    obtain ⟨res, r'⟩ := y
    rw [hr] at h
    cases res with
    | ok p =>
      obtain ⟨e1, e2⟩ := Packet.read_andThen ht hr (by simp) more t
      rw [e1]
      simp only [Outcome.ret.injEq, Prod.mk.injEq, Option.some.injEq] at h ⊢
      obtain ⟨rfl, rfl⟩ := h
      exact ⟨⟨rfl, rfl⟩, e2⟩
    | error e =>
      simp only at h
      split at h
      · cases h
      · rename_i hne
        obtain ⟨e1, e2⟩ := Packet.read_andThen ht hr (by intro he; cases he; exact hne rfl) more t
        rw [e1]
        simp only [if_neg hne, Outcome.ret.injEq, Prod.mk.injEq, Option.some.injEq] at h ⊢
        obtain ⟨rfl, rfl⟩ := h
        exact ⟨⟨rfl, rfl⟩, e2⟩

theorem FrameDecoder.next_append {b : Build} {s s' : FrameDecoder.State} {f : Frame} (h : FrameDecoder.next b s = .ret (some f, s')) (more : List Block) :
    FrameDecoder.next b ⟨s.counters, s.cadus ++ more⟩ = .ret (some f, ⟨s'.counters, s'.cadus ++ more⟩) := by
  obtain ⟨cn, cs⟩ := s
  unfold FrameDecoder.next at h ⊢
  cases cs with
  | nil => cases h
  | cons c cs =>
    simp only [List.cons_append] at h ⊢
    cases hd : VCDUHeader.decode c.data with
    | none => rw [hd] at h; cases h
    | some hdr =>
      rw [hd] at h
      simp only [bind, Outcome.bind] at h ⊢
      split at h
      · split at h
        · cases h; rfl
        · cases h
      · cases h
        first | rfl | simp

theorem FramedPackets.loop_append {iz tr : Nat} (more : List Frame) : ∀ (fs : List Frame) (cache : HMap U16 Tracker) (p : Packet) (s' : FramedPackets.State),
    FramedPackets.loop iz tr fs cache = .ret (some p, s') →
    FramedPackets.loop iz tr (fs ++ more) cache = .ret (some p, { s' with frames := s'.frames ++ more }) := by
  intro fs
  induction fs with
  | nil => intro cache p s' h; cases h
  | cons f fs ih =>
    intro cache p s' h
    simp only [FramedPackets.loop, List.cons_append] at h ⊢
    cases hm : f.mpdu iz tr with
    | panic => rw [hm] at h; cases h
    | ret o =>
      rw [hm] at h
      cases o with
      | none => cases h
      | some m =>
        simp only at h ⊢
        cases ho : FramedPackets.onFrame m f ((cache.get? f.header.vcid).getD (Tracker.new f.header.vcid)) with
        | panic => rw [ho] at h; cases h
        | ret y =>
          obtain ⟨ps, t⟩ := y
          rw [ho] at h
          cases ps with
          | nil => exact ih _ _ _ h
          | cons q qs =>
            simp only [Outcome.ret.injEq, Prod.mk.injEq, Option.some.injEq] at h ⊢
            obtain ⟨rfl, rfl⟩ := h
            exact ⟨rfl, rfl⟩

theorem FramedPackets.next_append {s s' : FramedPackets.State} {p : Packet} (h : FramedPackets.next s = .ret (some p, s')) (more : List Frame) :
    FramedPackets.next { s with frames := s.frames ++ more } = .ret (some p, { s' with frames := s'.frames ++ more }) := by
  unfold FramedPackets.next at h ⊢
  cases hr : s.ready with
  | cons q qs =>
    rw [hr] at h
    simp only [hr]
    cases h; rfl
  | nil =>
    rw [hr] at h
    simp only [hr]
    exact FramedPackets.loop_append more _ _ _ _ h

theorem PacketGroupIter.loop_append (more : List Packet) : ∀ (ps : List Packet) (g : Option PacketGroup) (o : Option PacketGroup) (s' : PacketGroupIter),
    PacketGroupIter.loop ps g = .inl (o, s') →
    PacketGroupIter.loop (ps ++ more) g = .inl (o, { s' with packets := s'.packets ++ more }) := by
  intro ps
  induction ps with
  | nil => intro g o s' h; simp [PacketGroupIter.loop] at h
  | cons p ps ih =>
    intro g o s' h
    cases g with
    | none =>
      simp only [PacketGroupIter.loop, List.cons_append] at h ⊢
      split at h
      · rename_i hs
        rw [if_pos hs]
        cases h; rfl
      · rename_i hs
        rw [if_neg hs]
        exact ih _ _ _ h
    | some g =>
      simp only [PacketGroupIter.loop, List.cons_append] at h ⊢
      split at h
      · rename_i hs
        rw [if_pos hs]
        cases h; rfl
      · rename_i hs
        rw [if_neg hs]
        exact ih _ _ _ h

end Ccsds
