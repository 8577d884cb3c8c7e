import Verif.Spec.Loss
import Verif.Props.Packets
/-!
# Lemmas for C82: what `packet_decoder` makes of a channel with losses
-/
namespace Ccsds
open Spec FramedPackets

/-- The bytes of the packet stream an event carries. -/
def evBytesOf (izone trailer : Nat) (v : Event) : List U8 := (v.sent.map (payloadOf izone trailer)).flatten

theorem evBytesOf_length (izone trailer : Nat) (v : Event) : (evBytesOf izone trailer v).length = v.size izone trailer := by
  cases v <;> simp [evBytesOf, Event.sent, Event.size]

/-- The frames of the events are long enough, and their pointers are as prescribed for packets that start at `ss`; the events begin at `x`. -/
def Placed (izone trailer : Nat) (ss : List Nat) : Nat → List Event → Prop
  | _, [] => True
  | x, v :: vs => (∀ d ∈ v.sent, 6 + izone + trailer + 2 ≤ d.length ∧ (payloadOf izone trailer d).length < 2046 ∧
      FirstHeaderPointer ss x (payloadOf izone trailer d).length (pointerOf izone d)) ∧ Placed izone trailer ss (x + v.size izone trailer) vs

theorem pointer_drop {A B : List Nat} {x len ptr : Nat} (h : FirstHeaderPointer (A ++ B) x len ptr) (hA : ∀ a ∈ A, a < x) :
    FirstHeaderPointer B x len ptr := by
  rcases h with ⟨z, hz, h1, h2, h3, h4⟩ | ⟨h1, h2⟩
  · left
    refine ⟨z, ?_, h1, h2, h3, fun y hy => h4 y (by simp [hy])⟩
    rcases List.mem_append.1 hz with hz | hz
    · have := hA z hz; omega
    · exact hz
  · exact .inr ⟨h1, fun y hy => h2 y (by simp [hy])⟩

theorem placed_drop {izone trailer : Nat} {A B : List Nat} {vs : List Event} : ∀ {x : Nat}, Placed izone trailer (A ++ B) x vs → (∀ a ∈ A, a < x) →
    Placed izone trailer B x vs := by
  induction vs with
  | nil => intros; trivial
  | cons v vs ih =>
    intro x h hA
    refine ⟨fun d hd => ?_, ih h.2 (fun a ha => by have := hA a ha; omega)⟩
    obtain ⟨h1, h2, h3⟩ := h.1 d hd
    exact ⟨h1, h2, pointer_drop h3 hA⟩

theorem starts_append (A B : List (List U8)) : ∀ (y : Nat), starts y (A ++ B) = starts y A ++ starts (y + A.flatten.length) B := by
  induction A with
  | nil => intro y; simp [starts]
  | cons q A ih => intro y; simp only [List.cons_append, starts, ih, List.flatten_cons, List.length_append, Nat.add_assoc]

theorem starts_lt (A : List (List U8)) (hA : ∀ q ∈ A, 0 < q.length) : ∀ (y : Nat), ∀ s ∈ starts y A, s < y + A.flatten.length := by
  induction A with
  | nil => intro y s hs; simp [starts] at hs
  | cons q A ih =>
    intro y s hs
    have h0 := hA q (by simp)
    simp only [List.flatten_cons, List.length_append]
    rcases List.mem_cons.1 hs with rfl | hs
    · omega
    · have := ih (fun q hq => hA q (by simp [hq])) _ s hs
      omega

theorem survivors_append (izone trailer : Nat) (vs : List Event) (pos : Nat) (A B : List (List U8)) : ∀ (s : Nat),
    survivors izone trailer vs pos s (A ++ B) = survivors izone trailer vs pos s A ++ survivors izone trailer vs pos (s + A.flatten.length) B := by
  induction A with
  | nil => intro s; simp [survivors]
  | cons q A ih =>
    intro s
    simp only [List.cons_append, survivors, ih, List.flatten_cons, List.length_append, List.append_assoc, Nat.add_assoc]

/-- What lies behind the events' beginning is not disturbed by them. -/
theorem undisturbed_past {izone trailer s e : Nat} {vs : List Event} : ∀ {pos : Nat}, e ≤ pos → Undisturbed izone trailer s e pos vs := by
  induction vs with
  | nil => intro pos h; exact h
  | cons v vs ih => intro pos h; exact ⟨.inr (by omega), ih (by omega)⟩

/-- All packets that end before the events begin survive. -/
theorem survivors_past (izone trailer : Nat) (vs : List Event) (pos : Nat) (A : List (List U8)) : ∀ (s : Nat), s + A.flatten.length ≤ pos →
    survivors izone trailer vs pos s A = A := by
  induction A with
  | nil => intro s _; rfl
  | cons q A ih =>
    intro s h
    simp only [List.flatten_cons, List.length_append] at h
    rw [survivors, if_pos (undisturbed_past (by omega)), ih _ (by omega)]
    rfl

/-- An intact frame disturbs nothing. -/
theorem survivors_ok (izone trailer : Nat) (v : Event) (vs : List Event) (pos : Nat) (hv : v.isOk = true) (A : List (List U8)) : ∀ (s : Nat),
    survivors izone trailer (v :: vs) pos s A = survivors izone trailer vs (pos + v.size izone trailer) s A := by
  induction A with
  | nil => intro s; rfl
  | cons q A ih =>
    intro s
    have : Undisturbed izone trailer s (s + q.length) pos (v :: vs) ↔ Undisturbed izone trailer s (s + q.length) (pos + v.size izone trailer) vs :=
      ⟨fun h => h.2, fun h => ⟨.inl hv, h⟩⟩
    simp only [survivors, this, ih]

/-- An event disturbs nothing that starts after it. -/
theorem survivors_after (izone trailer : Nat) (v : Event) (vs : List Event) (pos : Nat) (A : List (List U8)) : ∀ (s : Nat), pos + v.size izone trailer ≤ s →
    survivors izone trailer (v :: vs) pos s A = survivors izone trailer vs (pos + v.size izone trailer) s A := by
  induction A with
  | nil => intro s _; rfl
  | cons q A ih =>
    intro s hs
    have : Undisturbed izone trailer s (s + q.length) pos (v :: vs) ↔ Undisturbed izone trailer s (s + q.length) (pos + v.size izone trailer) vs :=
      ⟨fun h => h.2, fun h => ⟨.inr (by omega), h⟩⟩
    simp only [survivors, this, ih _ (by omega : pos + v.size izone trailer ≤ s + q.length)]

/-- A frame that is not intact costs all packets it touches. -/
theorem survivors_dead (izone trailer : Nat) (v : Event) (vs : List Event) (pos : Nat) (hv : v.isOk = false) (A : List (List U8)) (hA : ∀ q ∈ A, 0 < q.length) :
    ∀ (s : Nat), (∀ q, A.head? = some q → pos < s + q.length) → (∀ z ∈ starts s A, z < pos + v.size izone trailer) →
    survivors izone trailer (v :: vs) pos s A = [] := by
  induction A with
  | nil => intro s _ _; rfl
  | cons q A ih =>
    intro s h1 h2
    have hs := h2 s (by simp [starts])
    have hq := h1 q rfl
    have hn : ¬ Undisturbed izone trailer s (s + q.length) pos (v :: vs) := by
      rintro ⟨h | h, _⟩
      · rw [hv] at h; cases h
      · exact h ⟨hs, hq⟩
    rw [survivors, if_neg hn, ih (fun q hq => hA q (by simp [hq]))]
    · rfl
    · intro q' hq'
      have := hA q' (by simp [List.mem_of_mem_head? hq'])
      omega
    · intro z hz; exact h2 z (by simp [starts, hz])

/-- Dropping the packets that start before `x'`. `A ++ R`, from position `b0` on, is `B` and the packets `rem`. -/
theorem drop_started (rem : List (List U8)) : ∀ (b0 : Nat) (A B R : List U8), A ++ R = B ++ rem.flatten →
    ∃ dead live pre, rem = dead ++ live ∧ R = pre ++ live.flatten ∧
      (∀ z ∈ starts (b0 + B.length) dead, z < b0 + A.length) ∧ (live ≠ [] → b0 + B.length + dead.flatten.length = b0 + A.length + pre.length) := by
  induction rem with
  | nil =>
    intro b0 A B R h
    exact ⟨[], [], R, rfl, by simp, by simp [starts], by simp⟩
  | cons q rem ih =>
    intro b0 A B R h
    by_cases hlt : B.length < A.length
    · obtain ⟨dead, live, pre, h1, h2, h3, h4⟩ := ih b0 A (B ++ q) R (by rw [h]; simp)
      refine ⟨q :: dead, live, pre, by simp [h1], h2, ?_, ?_⟩
      · intro z hz
        rcases List.mem_cons.1 hz with rfl | hz
        · omega
        · exact h3 z (by simpa [Nat.add_assoc] using hz)
      · intro hl
        have := h4 hl
        simp only [List.length_append, List.flatten_cons] at this ⊢
        omega
    · refine ⟨[], q :: rem, B.drop A.length, rfl, ?_, by simp [starts], ?_⟩
      · have := congrArg (List.drop A.length) h
        rw [List.drop_left' rfl, List.drop_append_of_le_length (by omega)] at this
        exact this
      · intro _; simp; omega

/-- The packets that a piece of the stream completes, when the tracker's cache begins at a packet start. -/
theorem stream_piece {c p R : List U8} {rem : List (List U8)} (hrem : ∀ q ∈ rem, IsPacket q) (h : c ++ (p ++ R) = rem.flatten) :
    ∃ qs more rest, rem = qs ++ more ∧ c ++ p = qs.flatten ++ rest ∧ rest ++ R = more.flatten ∧ NoPacket rest ∧ ¬ BadHeader rest := by
  obtain ⟨qs, more, rest, h1, h2, h3, h4, _⟩ := prefix_parse rem (c ++ p) hrem ⟨R, by rw [List.append_assoc]; exact h⟩
  refine ⟨qs, more, rest, h1, h2, ?_, h3, h4⟩
  rw [← List.append_assoc, h2, h1, List.flatten_append, List.append_assoc] at h
  exact List.append_cancel_left h

/-- The state of the receiver: in synchronization with the incomplete packet `c`; or without. -/
def LossState (l : Link) (t : Tracker) (c pre : List U8) : Prop :=
  (l = .unbroken ∧ t.sync = true ∧ t.cache = c ∧ pre = [] ∧ NoPacket c) ∨ (c = [] ∧ (l = .broken ∨ Idle t))

theorem chan_loss {izone trailer : Nat} {l : Link} {vs : List Event} {fs : List Frame} (h : Arrives izone trailer l vs fs) :
    ∀ (t : Tracker) (x y : Nat) (c pre R : List U8) (rem : List (List U8)), (∀ q ∈ rem, IsPacket q) → c ++ R = pre ++ rem.flatten →
      y + c.length = x + pre.length → (vs.map (evBytesOf izone trailer)).flatten <+: R → Placed izone trailer (starts y rem) x vs → LossState l t c pre →
      (runChan izone trailer fs t).flatten.map (·.data) = survivors izone trailer vs x y rem := by
  -- what is common to all events that are not intact frames
  have gone : ∀ (v : Event) (vs : List Event), v.isOk = false → ∀ (l : Link) (t : Tracker) (x y : Nat) (c pre R : List U8) (rem : List (List U8)),
      (∀ q ∈ rem, IsPacket q) → c ++ R = pre ++ rem.flatten → y + c.length = x + pre.length → ((v :: vs).map (evBytesOf izone trailer)).flatten <+: R →
      Placed izone trailer (starts y rem) x (v :: vs) → LossState l t c pre →
      ∃ (y' : Nat) (pre' R' : List U8) (rem' : List (List U8)), (∀ q ∈ rem', IsPacket q) ∧ [] ++ R' = pre' ++ rem'.flatten ∧
        y' + ([] : List U8).length = x + v.size izone trailer + pre'.length ∧ (vs.map (evBytesOf izone trailer)).flatten <+: R' ∧
        Placed izone trailer (starts y' rem') (x + v.size izone trailer) vs ∧
        survivors izone trailer (v :: vs) x y rem = survivors izone trailer vs (x + v.size izone trailer) y' rem' := by
    intro v vs hv l t x y c pre R rem hrem heq hpos hbytes hpl hst
    obtain ⟨z, hz⟩ := hbytes
    simp only [List.map_cons, List.flatten_cons, List.append_assoc] at hz
    have hsz := evBytesOf_length izone trailer v
    have hlen : ∀ q ∈ rem, 0 < q.length := fun q hq => by have := (hrem q hq).1; omega
    have hhead : ∀ q, rem.head? = some q → x < y + q.length := by
      intro q hq
      have hm := List.mem_of_mem_head? hq
      have h0 := hlen q hm
      rcases hst with ⟨_, _, _, rfl, hnp⟩ | ⟨rfl, _⟩
      · apply Classical.byContradiction
        intro hc
        simp only [List.length_nil] at hpos
        cases rem with
        | nil => cases hq
        | cons q' rem =>
          cases hq
          have hle : q.length ≤ c.length := by omega
          have : q <+: c := List.prefix_of_prefix_length_le (l₃ := c ++ R) (by rw [heq]; simp) ⟨R, rfl⟩ hle
          obtain ⟨r, hr⟩ := this
          exact hnp q r (hrem q (by simp)) hr.symm
      · simp only [List.length_nil] at hpos; omega
    -- the stream from the start of `c` on
    have hb : ∃ b0, b0 + c.length = x ∧ b0 + pre.length = y := by
      rcases hst with ⟨_, _, _, rfl, _⟩ | ⟨rfl, _⟩
      · exact ⟨y, by simpa using hpos, rfl⟩
      · exact ⟨x, rfl, by simpa using hpos.symm⟩
    obtain ⟨b0, hb1, hb2⟩ := hb
    obtain ⟨dead, live, pre', h1, h2, h3, h4⟩ := drop_started rem b0 (c ++ evBytesOf izone trailer v) pre ((vs.map (evBytesOf izone trailer)).flatten ++ z)
      (by rw [List.append_assoc, hz]; exact heq)
    rw [hb2] at h3 h4
    have hx' : b0 + (c ++ evBytesOf izone trailer v).length = x + v.size izone trailer := by rw [List.length_append, hsz]; omega
    rw [hx'] at h3 h4
    have hdead : survivors izone trailer (v :: vs) x y dead = [] := by
      refine survivors_dead izone trailer v vs x hv dead (fun q hq => hlen q (by rw [h1]; simp [hq])) y ?_ h3
      intro q hq
      apply hhead
      rw [h1]
      cases dead with
      | nil => cases hq
      | cons a b => exact hq
    refine ⟨x + v.size izone trailer + pre'.length, pre', _, live, fun q hq => hrem q (by rw [h1]; simp [hq]), h2, by simp, ⟨z, rfl⟩, ?_, ?_⟩
    · have hp := hpl.2
      rw [h1, starts_append] at hp
      have hp := placed_drop hp h3
      cases hlive : live with
      | nil => rw [hlive] at hp; exact hp
      | cons a b =>
        rw [← hlive, ← h4 (by rw [hlive]; simp)]
        exact hp
    · rw [h1, survivors_append, hdead, List.nil_append]
      cases hlive : live with
      | nil => rfl
      | cons a b =>
        rw [← hlive, h4 (by rw [hlive]; simp)]
        exact survivors_after _ _ _ _ _ _ _ (by omega)
  induction h with
  | nil =>
    intro t x y c pre R rem hrem heq hpos hbytes hpl hst
    simp only [runChan, List.flatten_nil, List.map_nil]
    symm
    have : ∀ (rem : List (List U8)) (y : Nat), (∀ q ∈ rem, 0 < q.length) → (∀ q, rem.head? = some q → x < y + q.length) → survivors izone trailer [] x y rem = [] := by
      intro rem
      induction rem with
      | nil => intros; rfl
      | cons q rem ih =>
        intro y h1 h2
        have hq := h2 q rfl
        have hn : ¬ Undisturbed izone trailer y (y + q.length) x [] := by show ¬ (y + q.length ≤ x); omega
        rw [survivors, if_neg hn, ih _ (fun q hq => h1 q (by simp [hq]))]
        · rfl
        · intro q' hq'
          have := h1 q' (by simp [List.mem_of_mem_head? hq'])
          omega
    refine this rem y (fun q hq => by have := (hrem q hq).1; omega) ?_
    intro q hq
    have h0 := (hrem q (List.mem_of_mem_head? hq)).1
    rcases hst with ⟨_, _, _, rfl, hnp⟩ | ⟨rfl, _⟩
    · apply Classical.byContradiction
      intro hc
      simp only [List.length_nil] at hpos
      cases rem with
      | nil => cases hq
      | cons q' rem =>
        cases hq
        have hle : q.length ≤ c.length := by omega
        have : q <+: c := List.prefix_of_prefix_length_le (l₃ := c ++ R) (by rw [heq]; simp) ⟨R, rfl⟩ hle
        obtain ⟨r, hr⟩ := this
        exact hnp q r (hrem q (by simp)) hr.symm
    · simp only [List.length_nil] at hpos; omega
  | @damaged l d f vs fs hb hs ha ih =>
    intro t x y c pre R rem hrem heq hpos hbytes hpl hst
    obtain ⟨y', pre', R', rem', g1, g2, g3, g4, g5, g6⟩ := gone (.damaged d) vs rfl l t x y c pre R rem hrem heq hpos hbytes hpl hst
    obtain ⟨e1, e2⟩ := stepT_bad izone trailer f t hb
    rw [g6, runChan, e1]
    exact ih (stepT izone trailer f t).2 _ y' [] pre' R' rem' g1 g2 g3 g4 g5 (.inr ⟨rfl, .inr e2⟩)
  | @stray l f vs fs hb hs ha ih =>
    intro t x y c pre R rem hrem heq hpos hbytes hpl hst
    obtain ⟨y', pre', R', rem', g1, g2, g3, g4, g5, g6⟩ := gone .stray vs rfl l t x y c pre R rem hrem heq hpos hbytes hpl hst
    obtain ⟨e1, e2⟩ := stepT_bad izone trailer f t hb
    rw [g6, runChan, e1]
    exact ih (stepT izone trailer f t).2 _ y' [] pre' R' rem' g1 g2 g3 g4 g5 (.inr ⟨rfl, .inr e2⟩)
  | @lost l d vs fs ha ih =>
    intro t x y c pre R rem hrem heq hpos hbytes hpl hst
    obtain ⟨y', pre', R', rem', g1, g2, g3, g4, g5, g6⟩ := gone (.lost d) vs rfl l t x y c pre R rem hrem heq hpos hbytes hpl hst
    rw [g6]
    refine ih t _ y' [] pre' R' rem' g1 g2 g3 g4 g5 (.inr ⟨rfl, ?_⟩)
    rcases hst with ⟨h1, _⟩ | ⟨_, h1 | h1⟩
    · left; rw [h1]; rfl
    · left; rw [h1]; rfl
    · exact .inr h1
  | @ok l d f vs fs hd hb hm hm' ha ih =>
    intro t x y c pre R rem hrem heq hpos hbytes hpl hst
    subst hd
    obtain ⟨z, hz⟩ := hbytes
    simp only [List.map_cons, List.flatten_cons, List.append_assoc] at hz
    have hev : evBytesOf izone trailer (.ok f.data) = payloadOf izone trailer f.data := by simp [evBytesOf, Event.sent]
    have hsz : Event.size izone trailer (.ok f.data) = (payloadOf izone trailer f.data).length := rfl
    rw [hev] at hz
    obtain ⟨hlong, hsize, hptr⟩ := hpl.1 f.data (by simp [Event.sent])
    -- the tracker ends up in synchronization, having yielded the packets `qs`
    have next : ∀ (qs more : List (List U8)) (rest : List U8) (ps : List Packet), rem = qs ++ more → rest ++ ((vs.map (evBytesOf izone trailer)).flatten ++ z) = more.flatten →
        NoPacket rest → y + qs.flatten.length + rest.length = x + (payloadOf izone trailer f.data).length → ps.map (·.data) = qs → (stepT izone trailer f t).1 = ps →
        (stepT izone trailer f t).2.sync = true ∧ (stepT izone trailer f t).2.cache = rest →
        (runChan izone trailer (f :: fs) t).flatten.map (·.data) = survivors izone trailer (.ok f.data :: vs) x y rem := by
      intro qs more rest ps h1 h2 h3 h4 h5 h6 h7
      have hp := hpl.2
      rw [h1, starts_append] at hp
      have hlt : ∀ s ∈ starts y qs, s < x + Event.size izone trailer (.ok f.data) := by
        intro s hs
        have := starts_lt qs (fun q hq => by have := (hrem q (by rw [h1]; simp [hq])).1; omega) y s hs
        rw [hsz]; omega
      have := ih (stepT izone trailer f t).2 (x + Event.size izone trailer (.ok f.data)) (y + qs.flatten.length) rest [] _ more
        (fun q hq => hrem q (by rw [h1]; simp [hq])) h2 (by rw [hsz]; simpa using h4) ⟨z, rfl⟩ (placed_drop hp hlt) (.inl ⟨rfl, h7.1, h7.2, rfl, h3⟩)
      rw [runChan, List.flatten_cons, List.map_append, h6, h5, this, survivors_ok _ _ _ _ _ rfl, h1, survivors_append]
      congr 1
      exact (survivors_past _ _ _ _ _ _ (by rw [hsz]; omega)).symm
    rcases hst with ⟨h1, h2, h3, rfl, h4⟩ | ⟨rfl, hidle⟩
    · -- in synchronization
      rw [List.nil_append, ← hz] at heq
      obtain ⟨qs, more, rest, k1, k2, k3, k4, k5⟩ := stream_piece hrem heq
      obtain ⟨ps, a1, a2, a3, _, a4⟩ := stepT_sync izone trailer f t h2 hb (hm h1) qs rest (by rw [h3]; exact k2)
        (fun q hq => hrem q (by rw [k1]; simp [hq])) k4
      refine next qs more rest ps k1 k3 k4 ?_ a1 a3 (a4 k5)
      have := congrArg List.length k2
      simp only [List.length_append, List.length_nil] at this hpos
      omega
    · -- out of synchronization
      simp only [List.nil_append, List.length_nil, Nat.add_zero] at heq hpos
      -- what a frame without a packet start does
      have skip : NoStart izone trailer f → (stepT izone trailer f t).1 = [] ∧ Idle (stepT izone trailer f t).2 := by
        intro hns
        rcases hidle with hl | hi
        · have hs := stepT_skip izone trailer f (Tracker.new 0) ⟨rfl, rfl⟩ (.inr hns)
          obtain ⟨e1, e2, e3⟩ := stepT_missing izone trailer f t (Tracker.new 0) (hm' hl)
          exact ⟨e1.trans hs.1, e3.trans hs.2.1, e2.trans hs.2.2⟩
        · exact stepT_skip izone trailer f t hi (.inr hns)
      cases hrem0 : rem with
      | nil =>
        -- no packet is left
        have hns : NoStart izone trailer f := by
          rcases hptr with ⟨a, ha, _⟩ | ⟨h, _⟩
          · rw [hrem0] at ha; simp [starts] at ha
          · exact .inl h
        obtain ⟨e1, e2⟩ := skip hns
        have hp := hpl.2
        rw [hrem0] at hp
        have := ih (stepT izone trailer f t).2 (x + Event.size izone trailer (.ok f.data))
          (x + Event.size izone trailer (.ok f.data) + ((vs.map (evBytesOf izone trailer)).flatten ++ z).length) []
          ((vs.map (evBytesOf izone trailer)).flatten ++ z) _ [] (by simp) (by simp) (by simp) ⟨z, rfl⟩ hp (.inr ⟨rfl, .inr e2⟩)
        rw [runChan, List.flatten_cons, e1, List.nil_append, this]
        rfl
      | cons q0 rem0 =>
        have h0 : y ∈ starts y rem := by rw [hrem0]; simp [starts]
        have hge := starts_ge y rem
        rw [← hz] at heq
        rcases hptr with ⟨a, ha, b1, b2, b3, b4⟩ | ⟨hp, hnone⟩
        · -- the first packet starts in this frame
          have hay : a = y := by
            have := b4 y h0 (by omega)
            have := hge a ha
            omega
          subst hay
          have hptr : pointerOf izone f.data = pre.length := by omega
          have hdrop : [] ++ ((payloadOf izone trailer f.data).drop (pointerOf izone f.data) ++ ((vs.map (evBytesOf izone trailer)).flatten ++ z)) = rem.flatten := by
            have := congrArg (List.drop pre.length) heq
            rw [List.drop_append_of_le_length (by omega), List.drop_left' rfl] at this
            rw [hptr, List.nil_append]
            exact this
          obtain ⟨qs, more, rest, k1, k2, k3, k4, k5⟩ := stream_piece hrem hdrop
          have hns : ¬ NoStart izone trailer f := by unfold NoStart; omega
          obtain ⟨ps, a1, a2, a3, _, a4⟩ := stepT_start izone trailer f t (hidle.elim (fun h => .inr (hm' h)) (fun h => .inl h.1)) hb hns qs rest
            (by simpa using k2) (fun q hq => hrem q (by rw [k1]; simp [hq])) k4
          rw [← hrem0]
          refine next qs more rest ps k1 k3 k4 ?_ a1 a3 (a4 k5)
          have := congrArg List.length k2
          simp only [List.nil_append, List.length_append, List.length_drop] at this
          omega
        · -- it starts later
          have hns : NoStart izone trailer f := .inl hp
          obtain ⟨e1, e2⟩ := skip hns
          have hy := hnone y h0 (by omega)
          have hle : (payloadOf izone trailer f.data).length ≤ pre.length := by omega
          have hR : [] ++ ((vs.map (evBytesOf izone trailer)).flatten ++ z) = pre.drop (payloadOf izone trailer f.data).length ++ rem.flatten := by
            have := congrArg (List.drop (payloadOf izone trailer f.data).length) heq
            rw [List.drop_left' rfl, List.drop_append_of_le_length hle] at this
            exact this
          have := ih (stepT izone trailer f t).2 (x + Event.size izone trailer (.ok f.data)) y [] _ _ rem hrem hR (by rw [hsz, List.length_drop]; simp only [List.length_nil]; omega)
            ⟨z, rfl⟩ hpl.2 (.inr ⟨rfl, .inr e2⟩)
          rw [runChan, List.flatten_cons, e1, List.nil_append, this, ← hrem0, survivors_ok _ _ _ _ _ rfl]

end Ccsds
