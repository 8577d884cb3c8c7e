import Verif.Props.Cut
import Verif.Props.Loss
/-!
# C140: frames received again, or out of order
-/
namespace Ccsds
open Spec Transmitter

/-! ## C140: passes -/

/-- Frames after which the next one is bad, or not the one that follows, and those from there on. -/
theorem decoded_append {izone trailer : Nat} {X : List Frame} {qs : List (List U8)} (h : Decoded izone trailer X qs) {Y : List Frame} {qs' : List (List U8)}
    (h' : Decoded izone trailer Y qs') (hj : ∀ g, Y.head? = some g → Bad g ∨ g.missing ≠ 0#32) : Decoded izone trailer (X ++ Y) (qs ++ qs') := by
  induction h with
  | nil => exact h'
  | skip h1 _ ih => exact .skip h1 ih
  | @run f fs later qs more rest h1 h2 h3 h4 h5 h6 h7 h8 _ ih =>
    rw [List.append_assoc, List.append_assoc qs]
    refine .run h1 h2 h3 ?_ h5 h6 h7 h8 ih
    intro g hg
    cases later with
    | nil => exact hj g hg
    | cons l later => exact h4 g hg
  | @invalid f fs later qs more bad h1 h2 h3 h5 h6 h7 h8 _ ih =>
    rw [List.append_assoc, List.append_assoc qs]
    exact .invalid h1 h2 h3 h5 h6 h7 h8 ih

/-- C140: what is received of a channel in several passes (the sender's frames, or some of them, once, then again from some earlier point, or from a later one and afterwards those
before, ...): each pass is a reception in the order sent, with any losses and damage, and begins with a frame that does not continue the frame before (or is a damaged
one). The packets are those of the first pass, then those of the second, and so on: of each pass, exactly those that arrive undisturbed in it. -/
theorem C140_passes (izone trailer : Nat) (v : U16) (tail : List U8) (all : List (List U8)) (passes : List (List Event × List Frame))
    (hv : ∀ x ∈ passes, ∀ g ∈ x.2, g.header.vcid = v) (hfr : ∀ x ∈ passes, Framing izone trailer tail all (x.1.flatMap (·.sent)))
    (harr : ∀ x ∈ passes, Arrives izone trailer .unknown x.1 x.2) (hjoin : ∀ x ∈ passes.tail, ∀ g, x.2.head? = some g → Bad g ∨ g.missing ≠ 0#32) :
    ∃ ps s, Collects FramedPackets.next (FramedPackets.new (passes.flatMap (·.2)) izone trailer) ps (some s) ∧
      ps.map (·.data) = passes.flatMap (fun x => survivors izone trailer x.1 0 tail.length all) ∧ ∀ p ∈ ps, Good p := by
  have hlong : ∀ g ∈ passes.flatMap (·.2), ¬ Short izone trailer g := by
    intro g hg
    obtain ⟨x, hx, hg⟩ := List.mem_flatMap.1 hg
    exact arrives_long (harr x hx) (hfr x hx).long g hg
  have hv' : ∀ g ∈ passes.flatMap (·.2), g.header.vcid = v := by
    intro g hg
    obtain ⟨x, hx, hg⟩ := List.mem_flatMap.1 hg
    exact hv x hx g hg
  have hdec : Decoded izone trailer (passes.flatMap (·.2)) (passes.flatMap (fun x => survivors izone trailer x.1 0 tail.length all)) := by
    clear hlong hv'
    induction passes with
    | nil => exact .nil
    | cons x passes ih =>
      rw [List.flatMap_cons, List.flatMap_cons]
      have hx : Decoded izone trailer x.2 (survivors izone trailer x.1 0 tail.length all) := by
        obtain ⟨ps, s, h1, h2, _⟩ := C82_channel izone trailer v x.1 x.2 tail all (hv x (by simp)) (hfr x (by simp)) (harr x (by simp))
        obtain ⟨ps', s', k1, _, k2⟩ := C74_channel izone trailer v x.2 (hv x (by simp)) (arrives_long (harr x (by simp)) (hfr x (by simp)).long)
        obtain ⟨rfl, _⟩ := h1.unique k1
        exact (k2 _).2 h2.symm
      refine decoded_append hx (ih (fun y hy => hv y (by simp [hy])) (fun y hy => hfr y (by simp [hy])) (fun y hy => harr y (by simp [hy]))
        (fun y hy => hjoin y (List.mem_of_mem_tail hy))) ?_
      intro g hg
      rw [List.tail_cons] at hjoin
      clear ih hx hv hfr harr
      induction passes with
      | nil => cases hg
      | cons y passes ihp =>
        rw [List.flatMap_cons] at hg
        cases hy : y.2 with
        | nil =>
          rw [hy, List.nil_append] at hg
          exact ihp (fun z hz => hjoin z (by simp [hz])) hg
        | cons a l =>
          rw [hy] at hg
          exact hjoin y (by simp) g (by rw [hy]; exact hg)
  obtain ⟨ps, s, k1, k3, k2⟩ := C74_channel izone trailer v _ hv' hlong
  exact ⟨ps, s, k1, ((k2 _).1 hdec).symm, k3⟩

/-! ## C140: one frame twice -/

theorem size_ok (izone trailer : Nat) (ds : List (List U8)) :
    ((ds.map Event.ok).map (Event.size izone trailer)).sum = ((ds.map (payloadOf izone trailer)).flatten).length := by
  induction ds with
  | nil => rfl
  | cons d ds ih => simp only [List.map_cons, List.sum_cons, ih, List.flatten_cons, List.length_append, Event.size]

theorem undisturbed_ok (izone trailer s e : Nat) (ds : List (List U8)) : ∀ pos, Undisturbed izone trailer s e pos (ds.map .ok) ↔
    e ≤ pos + ((ds.map (payloadOf izone trailer)).flatten).length := by
  induction ds with
  | nil => intro pos; simp [Undisturbed]
  | cons d ds ih =>
    intro pos
    rw [List.map_cons, Undisturbed, ih]
    simp only [Event.isOk, Event.size, true_or, true_and, List.map_cons, List.flatten_cons, List.length_append]
    rw [Nat.add_assoc]

theorem undisturbed_lost (izone trailer s e : Nat) (hse : s < e) (ds : List (List U8)) : ∀ pos, Undisturbed izone trailer s e pos (ds.map .lost) ↔ e ≤ pos := by
  induction ds with
  | nil => intro pos; simp [Undisturbed]
  | cons d ds ih =>
    intro pos
    rw [List.map_cons, Undisturbed, ih]
    simp only [Event.isOk, Event.size, Bool.false_eq_true, false_or]
    omega

theorem undisturbed_lost_ok (izone trailer s e : Nat) (hse : s < e) (as ds : List (List U8)) : ∀ pos, pos ≤ s →
    (Undisturbed izone trailer s e pos (as.map .lost ++ ds.map .ok) ↔ pos + ((as.map (payloadOf izone trailer)).flatten).length ≤ s ∧
      e ≤ pos + ((as.map (payloadOf izone trailer)).flatten).length + ((ds.map (payloadOf izone trailer)).flatten).length) := by
  induction as with
  | nil =>
    intro pos hp
    simp only [List.map_nil, List.nil_append, undisturbed_ok, List.flatten_nil, List.length_nil]
    omega
  | cons d as ih =>
    intro pos hp
    rw [List.map_cons, List.cons_append, Undisturbed]
    simp only [Event.isOk, Event.size, Bool.false_eq_true, false_or, List.map_cons, List.flatten_cons, List.length_append]
    constructor
    · rintro ⟨h1, h2⟩
      have := (ih _ (by omega)).1 h2
      omega
    · rintro ⟨h1, h2⟩
      exact ⟨by omega, (ih _ (by omega)).2 (by omega)⟩

theorem survivors_thoseFrom (izone trailer : Nat) (vs : List Event) (P : Nat → Nat → Bool) (hP : ∀ s e, s < e → (Undisturbed izone trailer s e 0 vs ↔ P s e = true))
    (packets : List (List U8)) (hq : ∀ q ∈ packets, 0 < q.length) : ∀ s, survivors izone trailer vs 0 s packets = thoseFrom P s packets := by
  induction packets with
  | nil => intro s; rfl
  | cons q qs ih =>
    intro s
    have := hq q (by simp)
    rw [survivors, thoseFrom_cons, ih fun q hq' => hq q (by simp [hq'])]
    by_cases h : P s (s + q.length) = true
    · rw [if_pos ((hP _ _ (by omega)).2 h), if_pos h]
    · rw [if_neg (fun c => h ((hP _ _ (by omega)).1 c)), if_neg h]

theorem arrives_ok {izone trailer : Nat} : ∀ {l : Link} {fs : List Frame} {vs : List Event} {gs : List Frame}, (∀ g ∈ fs, ¬ Bad g) →
    (∀ i g, fs[i]? = some g → (l = .unbroken ∨ i ≠ 0) → g.missing = 0#32) → l ≠ .broken → (fs = [] → Arrives izone trailer l vs gs) →
    (fs ≠ [] → Arrives izone trailer .unbroken vs gs) → Arrives izone trailer l ((fs.map (·.data)).map .ok ++ vs) (fs ++ gs) := by
  intro l fs
  induction fs generalizing l with
  | nil => intro vs gs _ _ _ h _; exact h rfl
  | cons f fs ih =>
    intro vs gs hb hm hl _ h
    refine .ok rfl (hb f (by simp)) (fun e => hm 0 f rfl (.inl e)) (fun e => absurd e hl) ?_
    refine ih (fun g hg => hb g (by simp [hg])) ?_ (by simp) (fun _ => h (by simp)) (fun _ => h (by simp))
    intro i g hi _
    exact hm (i + 1) g (by simpa using hi) (.inr (by omega))

theorem arrives_lost {izone trailer : Nat} (ds : List (List U8)) : ∀ {l : Link} {vs : List Event} {gs : List Frame}, (ds = [] → Arrives izone trailer l vs gs) →
    (ds ≠ [] → Arrives izone trailer (if l = .unknown then .unknown else .broken) vs gs) → Arrives izone trailer l (ds.map .lost ++ vs) gs := by
  induction ds with
  | nil => intro l vs gs h _; exact h rfl
  | cons d ds ih =>
    intro l vs gs _ h
    refine .lost (ih (fun _ => h (by simp)) (fun _ => ?_))
    have := h (by simp)
    by_cases hl : l = .unknown
    · simpa [hl] using this
    · simpa [hl] using this

/-- C140: every frame of a channel arrives intact and in order, but one of them (with the data field `d`) twice in succession, the repetition being noticed: with `D` and `E` the
stream positions at which the payload of that frame begins and ends, the packets are those that end at or before `E`, followed by those that begin at or behind `D`.-/
theorem C140_repeated (izone trailer : Nat) (v : U16) (tail : List U8) (all : List (List U8)) (before after : List (List U8)) (d : List U8)
    (hfr : Framing izone trailer tail all (before ++ d :: after)) (fs gs : List Frame) (f g : Frame)
    (hv : ∀ x ∈ fs ++ f :: g :: gs, x.header.vcid = v) (hd : fs.map (·.data) = before) (hf : f.data = d) (hg : g.data = d) (hd' : gs.map (·.data) = after)
    (hb : ∀ x ∈ fs ++ f :: g :: gs, ¬ Bad x) (hm : ∀ x ∈ fs.tail ++ gs, x.missing = 0#32) (hmf : fs ≠ [] → f.missing = 0#32) (hmg : g.missing ≠ 0#32) :
    ∃ ps s, Collects FramedPackets.next (FramedPackets.new (fs ++ f :: g :: gs) izone trailer) ps (some s) ∧
      ps.map (·.data) = thoseFrom (fun _ e => decide (e ≤ ((before ++ [d]).map (payloadOf izone trailer)).flatten.length)) tail.length all ++
        thoseFrom (fun s e => decide ((before.map (payloadOf izone trailer)).flatten.length ≤ s) &&
          decide (e ≤ ((before ++ d :: after).map (payloadOf izone trailer)).flatten.length)) tail.length all ∧ ∀ p ∈ ps, Good p := by
  have hpos : ∀ q ∈ all, 0 < q.length := fun q hq => by have := (hfr.packets q hq).1; omega
  refine Exists.elim (C140_passes izone trailer v tail all
    [((before ++ [d]).map .ok ++ after.map .lost, fs ++ [f]), (before.map .lost ++ (d :: after).map .ok, g :: gs)] ?_ ?_ ?_ ?_) ?_
  rotate_left 4
  · rintro ps ⟨s, h1, h2, h3⟩
    refine ⟨ps, s, by simpa using h1, ?_, h3⟩
    rw [h2]
    simp only [List.flatMap_cons, List.flatMap_nil, List.append_nil]
    congr 1
    · refine survivors_thoseFrom _ _ _ _ (fun a e hae => ?_) _ hpos _
      rw [undisturbed_append, decide_eq_true_eq, size_ok, undisturbed_lost _ _ _ _ hae, Nat.zero_add]
      refine and_iff_right ?_
      intro x w y hw
      left
      have : w ∈ (before ++ [d]).map Event.ok := by rw [hw]; simp
      obtain ⟨z, _, rfl⟩ := List.mem_map.1 this
      rfl
    · refine survivors_thoseFrom _ _ _ _ (fun a e hae => ?_) _ hpos _
      rw [undisturbed_lost_ok _ _ _ _ hae _ _ _ (Nat.zero_le _), Bool.and_eq_true, decide_eq_true_eq, decide_eq_true_eq, Nat.zero_add, List.map_append, List.flatten_append,
        List.length_append]
  · intro x hx y hy
    simp only [List.mem_cons, List.not_mem_nil, or_false] at hx
    rcases hx with rfl | rfl
    · exact hv y (by simp only [List.mem_append, List.mem_cons, List.not_mem_nil, or_false] at hy ⊢; tauto)
    · exact hv y (by simp only [List.mem_append, List.mem_cons] at hy ⊢; tauto)
  · intro x hx
    have hsent : ∀ (k : List U8 → Event), (∀ z, (k z).sent = [z]) → ∀ l : List (List U8), (l.map k).flatMap (·.sent) = l := by
      intro k hk l
      induction l with
      | nil => rfl
      | cons z l ih => rw [List.map_cons, List.flatMap_cons, ih, hk]; rfl
    simp only [List.mem_cons, List.not_mem_nil, or_false] at hx
    rcases hx with rfl | rfl
    · rw [List.flatMap_append, hsent _ (fun _ => rfl), hsent _ (fun _ => rfl)]; simpa using hfr
    · rw [List.flatMap_append, hsent _ (fun _ => rfl), hsent _ (fun _ => rfl)]; exact hfr
  · intro x hx
    simp only [List.mem_cons, List.not_mem_nil, or_false] at hx
    rcases hx with rfl | rfl
    · have := arrives_ok (izone := izone) (trailer := trailer) (l := .unknown) (fs := fs ++ [f]) (vs := after.map .lost) (gs := []) (fun x hx => hb x (by
        simp only [List.mem_append, List.mem_cons, List.not_mem_nil, or_false] at hx ⊢; tauto)) ?_ (by simp) (by simp) (fun _ => ?_)
      · rw [List.map_append, hd, List.map_singleton, hf, List.append_nil] at this
        exact this
      · intro i x hx hi
        simp only [reduceCtorEq, false_or] at hi
        cases fs with
        | nil =>
          rw [List.nil_append] at hx
          have := (List.getElem?_eq_some_iff.1 hx).1
          simp only [List.length_cons, List.length_nil] at this
          omega
        | cons y fs =>
          obtain ⟨i, rfl⟩ : ∃ k, i = k + 1 := ⟨i - 1, by omega⟩
          rw [List.cons_append, List.getElem?_cons_succ] at hx
          have := List.mem_of_getElem? hx
          simp only [List.mem_append, List.mem_cons, List.not_mem_nil, or_false] at this
          rcases this with h | rfl
          · exact hm x (by simp [h])
          · exact hmf (by simp)
      · have := arrives_lost (izone := izone) (trailer := trailer) after (l := .unbroken) (vs := []) (gs := []) (fun _ => .nil) (fun _ => .nil)
        simpa using this
    · have : Arrives izone trailer .unknown ((d :: after).map .ok) (g :: gs) := by
        have := arrives_ok (izone := izone) (trailer := trailer) (l := .unknown) (fs := g :: gs) (vs := []) (gs := []) (fun x hx => hb x (by
          simp only [List.mem_append, List.mem_cons] at hx ⊢; tauto)) ?_ (by simp) (by simp) (fun _ => .nil)
        · rw [List.map_cons, hg, hd', List.append_nil, List.append_nil] at this
          exact this
        · intro i x hx hi
          simp only [reduceCtorEq, false_or] at hi
          obtain ⟨i, rfl⟩ : ∃ k, i = k + 1 := ⟨i - 1, by omega⟩
          rw [List.getElem?_cons_succ] at hx
          exact hm x (by simp [List.mem_of_getElem? hx])
      exact arrives_lost _ (fun _ => this) (fun _ => by simpa using this)
  · intro x hx y hy
    simp only [List.tail_cons, List.mem_cons, List.not_mem_nil, or_false] at hx
    subst hx
    simp only [List.head?_cons, Option.some.injEq] at hy
    subst hy
    exact .inr hmg

/-- No packet has a start of another packet inside. -/
theorem count_thoseFrom (q : List U8) (D E N x : Nat) (hx1 : D ≤ x) (hx2 : x < E) (hEN : E ≤ N) (all : List (List U8)) (hq : ∀ q ∈ all, 0 < q.length) : ∀ s, 
    (x < s ∨ x ∈ starts s all) →
    (thoseFrom (fun _ e => decide (e ≤ E)) s all ++ thoseFrom (fun s e => decide (D ≤ s) && decide (e ≤ N)) s all).count q =
      (thoseFrom (fun _ e => decide (e ≤ N)) s all).count q + (thoseFrom (fun s e => decide (D ≤ s) && decide (e ≤ E)) s all).count q := by
  induction all with
  | nil => intro s _; rfl
  | cons p ps ih =>
    intro s hs
    have hp := hq p (by simp)
    have hs' : x < s + p.length ∨ x ∈ starts (s + p.length) ps := by
      rcases hs with h | h
      · left; omega
      · rw [starts, List.mem_cons] at h
        rcases h with rfl | h
        · left; omega
        · exact .inr h
    have hin : ¬ (s < D ∧ E < s + p.length) := by
      rintro ⟨h1, h2⟩
      rcases hs with h | h
      · omega
      · rw [starts, List.mem_cons] at h
        rcases h with rfl | h
        · omega
        · have := starts_ge _ _ x h
          omega
    have ih := ih (fun q hq' => hq q (by simp [hq'])) _ hs'
    simp only [thoseFrom_cons, List.count_append] at ih ⊢
    by_cases h1 : s + p.length ≤ E
    · have h2 : s + p.length ≤ N := by omega
      simp only [h1, h2, decide_true, if_true, Bool.and_true]
      omega
    · by_cases h2 : s + p.length ≤ N
      · have h3 : D ≤ s := by omega
        simp only [h1, h2, h3, decide_true, decide_false, Bool.and_true, Bool.and_false, Bool.false_eq_true, if_false, if_true, List.count_nil]
        omega
      · simp only [h1, h2, decide_false, Bool.and_false, Bool.false_eq_true, if_false, List.count_nil]
        omega

/-- C140: if a packet starts in the frame that is received twice, nothing is lost: every packet that was sent completely comes out, those that lie in that frame wholly a second
time. -/
theorem C140_complete (izone trailer : Nat) (tail : List U8) (all : List (List U8)) (before after : List (List U8)) (d : List U8)
    (hfr : Framing izone trailer tail all (before ++ d :: after)) (hstart : pointerOf izone d ≠ 0x7ff) (q : List U8) :
    (thoseFrom (fun _ e => decide (e ≤ ((before ++ [d]).map (payloadOf izone trailer)).flatten.length)) tail.length all ++
      thoseFrom (fun s e => decide ((before.map (payloadOf izone trailer)).flatten.length ≤ s) &&
        decide (e ≤ ((before ++ d :: after).map (payloadOf izone trailer)).flatten.length)) tail.length all).count q =
    (thoseFrom (fun _ e => decide (e ≤ ((before ++ d :: after).map (payloadOf izone trailer)).flatten.length)) tail.length all).count q +
    (thoseFrom (fun s e => decide ((before.map (payloadOf izone trailer)).flatten.length ≤ s) &&
      decide (e ≤ ((before ++ [d]).map (payloadOf izone trailer)).flatten.length)) tail.length all).count q := by
  have hpos : ∀ q ∈ all, 0 < q.length := fun q hq => by have := (hfr.packets q hq).1; omega
  rcases hfr.pointers before d after rfl with ⟨x, h1, h2, h3, _⟩ | ⟨h, _⟩
  · refine count_thoseFrom q _ _ _ x h2 ?_ ?_ all hpos _ (.inr h1)
    · simp only [List.map_append, List.flatten_append, List.length_append, List.map_cons, List.map_nil, List.flatten_cons, List.flatten_nil, List.length_nil]
      omega
    · simp only [List.map_append, List.flatten_append, List.length_append, List.map_cons, List.map_nil, List.flatten_cons, List.flatten_nil, List.length_nil]
      omega
  · exact absurd h hstart

/-- C140, how the repetition is noticed: the frame made of a block that follows another block of its channel (other than the fill channel) with the same data, or with a lower frame
counter, reports missing frames; for the same data 16777214 of them. Except when the counter falls from 16777214 to 0, which the code takes for the rollover (C34), and from
16777215, where `missing_frames` overflows. -/
theorem C140_noticed (b : Build) (before : List Block) (c : Block) (f : Frame) (p : VCDUHeader) (h : FrameOf b before c f) (hv : f.header.vcid ≠ 63)
    (hl : lastOfChannel before f.header.vcid = some p) :
    (p.counter = f.header.counter → f.missing = 16777214#32) ∧
    (f.header.counter.toNat < p.counter.toNat → p.counter.toNat < 16777214 ∨ (p.counter.toNat = 16777214 ∧ f.header.counter.toNat ≠ 0) → f.missing ≠ 0#32) := by
  obtain ⟨_, _, _, h4⟩ := h
  rw [hl] at h4
  simp only [hv, if_false] at h4
  obtain ⟨a1, _, a3, _⟩ := C34_any b f.header.counter p.counter
  refine ⟨fun e => ?_, fun e e' => ?_⟩
  · rw [a1 e.symm] at h4
    exact (Outcome.ret.inj h4).symm
  · rw [a3 e (by omega)] at h4
    rw [← Outcome.ret.inj h4]
    intro hz
    have := congrArg BitVec.toNat hz
    simp only [BitVec.toNat_ofNat] at this
    omega

/-- The full claim: whichever frame is received twice, every packet that was sent completely comes out. -/
def C140_full : Prop := ∀ (izone trailer : Nat) (v : U16) (tail : List U8) (all : List (List U8)) (before after : List (List U8)) (d : List U8),
    Framing izone trailer tail all (before ++ d :: after) → ∀ (fs gs : List Frame) (f g : Frame),
    (∀ x ∈ fs ++ f :: g :: gs, x.header.vcid = v) → fs.map (·.data) = before → f.data = d → g.data = d → gs.map (·.data) = after →
    (∀ x ∈ fs ++ f :: g :: gs, ¬ Bad x) → (∀ x ∈ fs.tail ++ gs, x.missing = 0#32) → (fs ≠ [] → f.missing = 0#32) → g.missing ≠ 0#32 →
    ∀ ps s, Collects FramedPackets.next (FramedPackets.new (fs ++ f :: g :: gs) izone trailer) ps (some s) →
    ∀ q, (thoseFrom (fun _ e => decide (e ≤ ((before ++ d :: after).map (payloadOf izone trailer)).flatten.length)) tail.length all).count q ≤ (ps.map (·.data)).count q

/-- C140, when a packet starts in the frame that is received twice: every packet that was sent completely comes out, those that lie in that frame wholly a second time, and
nothing else. -/
theorem C140_repeated_partial (izone trailer : Nat) (v : U16) (tail : List U8) (all : List (List U8)) (before after : List (List U8)) (d : List U8)
    (hfr : Framing izone trailer tail all (before ++ d :: after)) (hstart : pointerOf izone d ≠ 0x7ff) (fs gs : List Frame) (f g : Frame)
    (hv : ∀ x ∈ fs ++ f :: g :: gs, x.header.vcid = v) (hd : fs.map (·.data) = before) (hf : f.data = d) (hg : g.data = d) (hd' : gs.map (·.data) = after)
    (hb : ∀ x ∈ fs ++ f :: g :: gs, ¬ Bad x) (hm : ∀ x ∈ fs.tail ++ gs, x.missing = 0#32) (hmf : fs ≠ [] → f.missing = 0#32) (hmg : g.missing ≠ 0#32)
    (ps : List Packet) (s : FramedPackets.State) (h : Collects FramedPackets.next (FramedPackets.new (fs ++ f :: g :: gs) izone trailer) ps (some s)) (q : List U8) :
    (ps.map (·.data)).count q =
      (thoseFrom (fun _ e => decide (e ≤ ((before ++ d :: after).map (payloadOf izone trailer)).flatten.length)) tail.length all).count q +
      (thoseFrom (fun s e => decide ((before.map (payloadOf izone trailer)).flatten.length ≤ s) &&
        decide (e ≤ ((before ++ [d]).map (payloadOf izone trailer)).flatten.length)) tail.length all).count q := by
  obtain ⟨ps', s', h1, h2, _⟩ := C140_repeated izone trailer v tail all before after d hfr fs gs f g hv hd hf hg hd' hb hm hmf hmg
  obtain ⟨rfl, _⟩ := h.unique h1
  rw [h2]
  exact C140_complete izone trailer tail all before after d hfr hstart q

namespace AgainEx

/-- The seven frames of `LossEx`, all received. -/
def fr (missing : U32) (i : Nat) : Frame :=
  LossEx.frameOf missing none (match i with
    | 0 => LossEx.data 0 1 0 | 1 => LossEx.data 0 4 1 | 2 => LossEx.data 0 5 2 | 3 => LossEx.data 7 0xff 3 | 4 => LossEx.data 0 2 4 | 5 => LossEx.data 0 3 5 | _ => LossEx.data 7 0xff 6)

def all : List (List U8) := [SemEx.pktA, SemEx.pktB, SemEx.pktA, SemEx.pktB, SemEx.pktA]

theorem framing : Framing 0 0 [9#8] all (([fr 0 0, fr 0 1, fr 0 2].map (·.data)) ++ (fr 0 3).data :: [fr 0 4, fr 0 5, fr 0 6].map (·.data)) := LossEx.framing

theorem framing' : Framing 0 0 [9#8] all (([fr 0 0, fr 0 1, fr 0 2, fr 0 3].map (·.data)) ++ (fr 0 4).data :: [fr 0 5, fr 0 6].map (·.data)) := LossEx.framing

/-- The frame with the number 3, in which no packet starts, arrives twice: the packet that begins in frame 2 and ends in frame 4 is lost. -/
theorem C140_violated : ¬ C140_full := by
  intro h
  obtain ⟨ps, s, h1, h2, _⟩ := C140_repeated 0 0 43#16 [9#8] all _ _ _ framing [fr 0 0, fr 0 1, fr 0 2] [fr 0 4, fr 0 5, fr 0 6] (fr 0 3) (fr 16777214 3) (by decide +kernel) rfl rfl rfl rfl
    (by decide +kernel) (by decide +kernel) (fun _ => rfl) (by decide)
  have h3 := h 0 0 43#16 [9#8] all _ _ _ framing [fr 0 0, fr 0 1, fr 0 2] [fr 0 4, fr 0 5, fr 0 6] (fr 0 3) (fr 16777214 3) (by decide +kernel) rfl rfl rfl rfl
    (by decide +kernel) (by decide +kernel) (fun _ => rfl) (by decide) ps s h1 SemEx.pktA
  rw [h2] at h3
  revert h3
  decide +kernel

/-- Frame 4, in which a packet starts, arrives twice: all five packets come out (none of them lies in that frame wholly). -/
example (ps : List Packet) (s : FramedPackets.State)
    (h : Collects FramedPackets.next (FramedPackets.new ([fr 0 0, fr 0 1, fr 0 2, fr 0 3] ++ fr 0 4 :: fr 16777214 4 :: [fr 0 5, fr 0 6]) 0 0) ps (some s)) :
    (ps.map (·.data)).count SemEx.pktA = 3 ∧ (ps.map (·.data)).count SemEx.pktB = 2 := by
  have key := C140_repeated_partial 0 0 43#16 [9#8] all _ _ _ framing' (by decide +kernel) [fr 0 0, fr 0 1, fr 0 2, fr 0 3] [fr 0 5, fr 0 6] (fr 0 4) (fr 16777214 4) (by decide +kernel)
    rfl rfl rfl rfl (by decide +kernel) (by decide +kernel) (fun _ => rfl) (by decide) ps s h
  exact ⟨(key _).trans (by decide +kernel), (key _).trans (by decide +kernel)⟩

/-- Out of order: frames 4 to 6 first, then frames 0 to 3. -/
example : ∃ ps s, Collects FramedPackets.next (FramedPackets.new ([fr 0 4, fr 0 5, fr 0 6] ++ [fr 16777208 0, fr 0 1, fr 0 2, fr 0 3]) 0 0) ps (some s) ∧
    ps.map (·.data) = [SemEx.pktB, SemEx.pktA] ++ [SemEx.pktA, SemEx.pktB] := by
  refine Exists.elim (C140_passes 0 0 43#16 [9#8] all
    [([.lost (fr 0 0).data, .lost (fr 0 1).data, .lost (fr 0 2).data, .lost (fr 0 3).data, .ok (fr 0 4).data, .ok (fr 0 5).data, .ok (fr 0 6).data], [fr 0 4, fr 0 5, fr 0 6]),
      ([.ok (fr 0 0).data, .ok (fr 0 1).data, .ok (fr 0 2).data, .ok (fr 0 3).data, .lost (fr 0 4).data, .lost (fr 0 5).data, .lost (fr 0 6).data], [fr 16777208 0, fr 0 1, fr 0 2, fr 0 3])]
    (by decide +kernel) ?_ ?_ (by decide +kernel)) ?_
  rotate_left 2
  · rintro ps ⟨s, h1, h2, _⟩
    exact ⟨ps, s, h1, h2.trans (by decide +kernel)⟩
  · intro x hx
    simp only [List.mem_cons, List.not_mem_nil, or_false] at hx
    rcases hx with rfl | rfl <;> exact LossEx.framing
  · intro x hx
    simp only [List.mem_cons, List.not_mem_nil, or_false] at hx
    rcases hx with rfl | rfl
    · refine .lost (.lost (.lost (.lost ?_)))
      refine .ok rfl (by decide) (by decide) (by decide) ?_
      refine .ok rfl (by decide) (by decide) (by decide) ?_
      refine .ok rfl (by decide) (by decide) (by decide) ?_
      exact .nil
    · refine .ok rfl (by decide) (by decide) (by decide) ?_
      refine .ok rfl (by decide) (by decide) (by decide) ?_
      refine .ok rfl (by decide) (by decide) (by decide) ?_
      refine .ok rfl (by decide) (by decide) (by decide) ?_
      exact .lost (.lost (.lost .nil))

/-- The frame of a block that repeats the one before it. -/
theorem again_frame : FrameOf ⟨true⟩ [⟨0, ⟨4, 0#8⟩, (fr 0 0).data⟩] ⟨10, ⟨14, 0#8⟩, (fr 0 0).data⟩ ⟨⟨1#8, 157#16, 43#16, 0#32⟩, 16777214#32, none, (fr 0 0).data⟩ := by
  have hl : lastOfChannel [⟨0, ⟨4, 0#8⟩, (fr 0 0).data⟩] 43#16 = some ⟨1#8, 157#16, 43#16, 0#32⟩ := by decide +kernel
  refine ⟨by decide +kernel, rfl, rfl, ?_⟩
  simp only [hl]
  decide +kernel

example (f : Frame) (h : FrameOf ⟨true⟩ [⟨0, ⟨4, 0#8⟩, (fr 0 0).data⟩] ⟨10, ⟨14, 0#8⟩, (fr 0 0).data⟩ f) (hf : f.header = ⟨1#8, 157#16, 43#16, 0#32⟩) : f.missing = 16777214#32 :=
  (C140_noticed ⟨true⟩ _ _ f ⟨1#8, 157#16, 43#16, 0#32⟩ h (by rw [hf]; decide) (by rw [hf]; decide +kernel)).1 (by rw [hf])

end AgainEx

end Ccsds
