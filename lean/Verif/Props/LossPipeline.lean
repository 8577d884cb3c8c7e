import Verif.Props.Gaps
import Verif.Props.Loss
/-!
# C83: the whole receive path on a bad link
-/
namespace Ccsds
open Spec Pipeline

/-- What becomes of a block `tx` the sender sent: received as `rx` with few enough errors to be repaired; received as `rx`, beyond repair; or lost without trace. -/
inductive Sent where
  | ok (tx rx : List U8)
  | damaged (tx rx : List U8)
  | lost (tx : List U8)

def Sent.tx : Sent → List U8
  | .ok tx _ => tx
  | .damaged tx _ => tx
  | .lost tx => tx

/-- What is received, if anything. -/
def Sent.rx : Sent → List (List U8)
  | .ok _ rx => [rx]
  | .damaged _ rx => [rx]
  | .lost _ => []

/-- The channel the header of a block names. -/
def channelOf (d : List U8) : Option U16 := (VCDUHeader.decode d).map (·.vcid)

/-- The blocks sent on channel `v`. -/
def sentOn (v : U16) (ts : List Sent) : List (List U8) := (ts.map Sent.tx).filter fun d => channelOf d == some v

/-- What the transmission of a block means for channel `v`: its header may be damaged so that it seems to be on another channel. `n`: the bytes of the frame, without check symbols. -/
def Sent.events (v : U16) (n : Nat) : Sent → List Event
  | .ok tx _ => if channelOf tx = some v then [.ok (tx.take n)] else []
  | .damaged tx rx =>
    if channelOf tx = some v then (if channelOf rx = some v then [.damaged (tx.take n)] else [.lost (tx.take n)])
    else if channelOf rx = some v then [.stray] else []
  | .lost tx => if channelOf tx = some v then [.lost (tx.take n)] else []

/-- Beyond repair: in some code word no code word is within 16 errors. -/
def Uncorrectable (code : List U8 → Prop) (o : RS.Opts) (rx : List U8) : Prop :=
  ∃ i, i < o.interleave.toNat ∧ ∀ w, code w → 16 < dist (codeword o.interleave.toNat (List.replicate o.virtualFill 0#8 ++ rx) i) w

/-- A transmission over a bad link: blocks of `len` bytes; those received are within or beyond repair. -/
structure Lossy (code : List U8 → Prop) (o : RS.Opts) (len : Nat) (ts : List Sent) : Prop where
  length : len + o.virtualFill = 255 * o.interleave.toNat
  ok : ∀ tx rx, Sent.ok tx rx ∈ ts → Correctable code o tx rx
  damaged : ∀ tx rx, Sent.damaged tx rx ∈ ts → rx.length = len ∧ Uncorrectable code o rx

theorem events_sent (v : U16) (n : Nat) (ts : List Sent) : (ts.flatMap (Sent.events v n)).flatMap (·.sent) = (sentOn v ts).map (·.take n) := by
  induction ts with
  | nil => rfl
  | cons t ts ih =>
    rw [List.flatMap_cons, List.flatMap_append, ih]
    cases t with
    | ok tx rx => by_cases h : channelOf tx = some v <;> simp [Sent.events, Sent.tx, Event.sent, h, sentOn]
    | lost tx => by_cases h : channelOf tx = some v <;> simp [Sent.events, Sent.tx, Event.sent, h, sentOn]
    | damaged tx rx =>
      by_cases h : channelOf tx = some v <;> by_cases h2 : channelOf rx = some v <;> simp [Sent.events, Sent.tx, Event.sent, h, h2, sentOn]

/-- The frames that leave the Reed–Solomon stage, one for each block received; `before`: the blocks received earlier. -/
def Decodes (b : Build) (k : Codec) (o : RS.Opts) : List (List U8) → List (List U8) → List Frame → Prop
  | _, [], [] => True
  | before, rx :: rxs, g :: gs => (∃ f, FrameOf b (before.map blk) (blk rx) f ∧ RS.job k o f = .ret g) ∧ Decodes b k o (before ++ [rx]) rxs gs
  | _, _, _ => False

theorem job_header {k : Codec} {o : RS.Opts} {f g : Frame} (h : RS.job k o f = .ret g) : g.header = f.header ∧ g.missing = f.missing := by
  by_cases h63 : f.header.vcid = 63
  · rw [C44_fill k o f h63] at h; cases h; exact ⟨rfl, rfl⟩
  · obtain ⟨h1, h2⟩ := C44_frame k o f h63
    by_cases hp : ∃ i d, RS.perform k o.config f.data = .ret (.ok (i, d))
    · obtain ⟨i, d, hp⟩ := hp
      obtain ⟨f', e, a, b, _⟩ := h1 i d hp
      rw [h] at e; cases e
      exact ⟨a, b⟩
    · rw [h2 (fun i d e => hp ⟨i, d, e⟩)] at h; cases h

theorem consecutive_next {v : U16} {A B : List (List U8)} {tx c : List U8} {h hc : VCDUHeader} (hcon : ConsecutiveCounters v (A ++ tx :: B)) (hl : A.getLast? = some c)
    (e : VCDUHeader.decode c = some hc) (e' : VCDUHeader.decode tx = some h) : h.counter.toNat = hc.counter.toNat + 1 := by
  obtain ⟨A', rfl⟩ := List.getLast?_eq_some_iff.1 hl
  refine hcon.next A'.length c tx hc h ?_ ?_ e e'
  · simp
  · rw [List.getElem?_append_right (by simp)]; simp

/-- What the receiver knows, given the transmissions `done`. -/
def Knows (v : U16) (done : List Sent) (l : Link) : Prop :=
  l = .unknown ∨ ∃ c hc p, (sentOn v done).getLast? = some c ∧ VCDUHeader.decode c = some hc ∧ lastOfChannel ((done.flatMap Sent.rx).map blk) v = some p ∧
    (l = .unbroken → p.counter.toNat = hc.counter.toNat) ∧ (l = .broken → p.counter.toNat < hc.counter.toNat)

theorem channelOf_eq {d : List U8} {h : VCDUHeader} (e : VCDUHeader.decode d = some h) (v : U16) : channelOf d = some v ↔ h.vcid = v := by
  simp [channelOf, e]

theorem channelOf_some {d : List U8} {v : U16} (h : channelOf d = some v) : ∃ x, VCDUHeader.decode d = some x ∧ x.vcid = v := by
  unfold channelOf at h
  cases e : VCDUHeader.decode d with
  | none => rw [e] at h; cases h
  | some x => rw [e] at h; exact ⟨x, rfl, by simpa using h⟩

theorem sentOn_snoc (v : U16) (done : List Sent) (t : Sent) : sentOn v (done ++ [t]) = if channelOf t.tx = some v then sentOn v done ++ [t.tx] else sentOn v done := by
  rw [sentOn, List.map_append, List.filter_append]
  split <;> rename_i h <;> simp [h, sentOn]

theorem arrives_pipeline (b : Build) (k : Codec) (code : List U8 → Prop) (hk : Bounded k code) (o : RS.Opts) (len : Nat) (hI : 0 < o.interleave.toNat)
    (hvf : o.virtualFill ≤ 223 * o.interleave.toNat) (hcorr : o.correct = true) (izone trailer : Nat) (hlong : 6 + izone + trailer + 2 ≤ len) (v : U16) (hv : v ≠ 63) (todo : List Sent) :
    ∀ (done : List Sent) (l : Link) (outs : List Frame), Lossy code o len (done ++ todo) → ConsecutiveCounters v (sentOn v (done ++ todo)) →
      Decodes b k o (done.flatMap Sent.rx) (todo.flatMap Sent.rx) outs → Knows v done l →
      Arrives izone trailer l (todo.flatMap (Sent.events v (len - 32 * o.interleave.toNat))) (outs.filter fun f => f.header.vcid == v) := by
  induction todo with
  | nil =>
    intro done l outs _ _ hd _
    cases outs with
    | nil => exact .nil
    | cons g gs => exact hd.elim
  | cons t todo ih =>
    intro done l outs hl hc hd hkn
    have hl' : Lossy code o len ((done ++ [t]) ++ todo) := by simpa using hl
    have hc' : ConsecutiveCounters v (sentOn v ((done ++ [t]) ++ todo)) := by simpa using hc
    have hmem : t ∈ done ++ t :: todo := by simp
    have hsnoc : ∀ rx, Sent.rx t = [rx] → (done ++ [t]).flatMap Sent.rx = done.flatMap Sent.rx ++ [rx] := by
      intro rx h; simp [h]
    -- the sender's previous and this frame
    have hsplit : channelOf t.tx = some v → ∃ B, sentOn v (done ++ t :: todo) = sentOn v done ++ t.tx :: B := by
      intro h
      refine ⟨sentOn v todo, ?_⟩
      simp [sentOn, h]
    -- a block of another channel (or nothing) is received, and nothing is sent on this one
    have other : channelOf t.tx ≠ some v → (∀ rx ∈ Sent.rx t, ∃ x, VCDUHeader.decode rx = some x ∧ x.vcid ≠ v) → Knows v (done ++ [t]) l := by
      intro h1 h2
      rcases hkn with h | ⟨c, hcc, p, k1, k2, k3, k4, k5⟩
      · exact .inl h
      · refine .inr ⟨c, hcc, p, ?_, k2, ?_, k4, k5⟩
        · rw [sentOn_snoc, if_neg h1]; exact k1
        · cases ht : t with
          | lost tx => simpa [Sent.rx] using k3
          | ok tx rx =>
            obtain ⟨x, e1, e2⟩ := h2 rx (by rw [ht]; simp [Sent.rx])
            rw [List.flatMap_append, List.map_append]
            simp only [List.flatMap_cons, List.flatMap_nil, Sent.rx, List.append_nil, List.map_cons, List.map_nil]
            rw [lastOfChannel_snoc _ _ x e1, if_neg e2]; exact k3
          | damaged tx rx =>
            obtain ⟨x, e1, e2⟩ := h2 rx (by rw [ht]; simp [Sent.rx])
            rw [List.flatMap_append, List.map_append]
            simp only [List.flatMap_cons, List.flatMap_nil, Sent.rx, List.append_nil, List.map_cons, List.map_nil]
            rw [lastOfChannel_snoc _ _ x e1, if_neg e2]; exact k3
    -- a frame of this channel is sent but not seen on it
    have missed : channelOf t.tx = some v → (∀ rx ∈ Sent.rx t, ∃ x, VCDUHeader.decode rx = some x ∧ x.vcid ≠ v) →
        Knows v (done ++ [t]) (if l = .unknown then .unknown else .broken) := by
      intro h1 h2
      rcases hkn with h | ⟨c, hcc, p, k1, k2, k3, k4, k5⟩
      · rw [if_pos h]; exact .inl rfl
      · by_cases hl0 : l = .unknown
        · rw [if_pos hl0]; exact .inl rfl
        · rw [if_neg hl0]
          obtain ⟨B, hB⟩ := hsplit h1
          obtain ⟨x, e1, e2⟩ := channelOf_some h1
          have hnext := consecutive_next (by rw [← hB]; exact hc) k1 k2 e1
          have hlt : p.counter.toNat < x.counter.toNat := by
            cases l with
            | unknown => exact absurd rfl hl0
            | unbroken => have := k4 rfl; omega
            | broken => have := k5 rfl; omega
          refine .inr ⟨t.tx, x, p, ?_, e1, ?_, (fun h => by cases h), fun _ => hlt⟩
          · rw [sentOn_snoc, if_pos h1]; simp
          · cases ht : t with
            | lost tx => simpa [Sent.rx] using k3
            | ok tx rx =>
              obtain ⟨x, e1, e2⟩ := h2 rx (by rw [ht]; simp [Sent.rx])
              rw [List.flatMap_append, List.map_append]
              simp only [List.flatMap_cons, List.flatMap_nil, Sent.rx, List.append_nil, List.map_cons, List.map_nil]
              rw [lastOfChannel_snoc _ _ x e1, if_neg e2]; exact k3
            | damaged tx rx =>
              obtain ⟨x, e1, e2⟩ := h2 rx (by rw [ht]; simp [Sent.rx])
              rw [List.flatMap_append, List.map_append]
              simp only [List.flatMap_cons, List.flatMap_nil, Sent.rx, List.append_nil, List.map_cons, List.map_nil]
              rw [lastOfChannel_snoc _ _ x e1, if_neg e2]; exact k3
    cases t with
    | lost tx =>
      have hd' : Decodes b k o ((done ++ [Sent.lost tx]).flatMap Sent.rx) (todo.flatMap Sent.rx) outs := by simpa [Sent.rx] using hd
      rw [List.flatMap_cons]
      by_cases h : channelOf tx = some v
      · simp only [Sent.events, if_pos h, List.singleton_append]
        exact .lost (ih _ _ outs hl' hc' hd' (missed h (by simp [Sent.rx])))
      · simp only [Sent.events, if_neg h, List.nil_append]
        exact ih _ l outs hl' hc' hd' (other h (by simp [Sent.rx]))
    | ok tx rx =>
      have hcor := hl.ok tx rx hmem
      cases outs with
      | nil => exact hd.elim
      | cons g gs =>
        obtain ⟨⟨f, hf, hj⟩, hd⟩ := hd
        have hd' : Decodes b k o ((done ++ [Sent.ok tx rx]).flatMap Sent.rx) (todo.flatMap Sent.rx) gs := by rw [hsnoc rx rfl]; exact hd
        obtain ⟨jh, jm⟩ := job_header hj
        obtain ⟨f1, f2, f3, f4⟩ := hf
        have f1 : VCDUHeader.decode rx = some f.header := f1
        have f2 : f.data = rx := f2
        have f1' : VCDUHeader.decode tx = some f.header := by rw [← hcor.header]; exact f1
        rw [List.flatMap_cons, List.filter_cons, jh]
        by_cases h : f.header.vcid = v
        · have hch : channelOf tx = some v := (channelOf_eq f1' v).2 h
          have htl : tx.length = len := by have := hcor.length; have := hl.length; omega
          rw [if_pos (by simpa using h)]
          simp only [Sent.events, if_pos hch, List.singleton_append]
          obtain ⟨g', a1, a2, a3, a4⟩ := job_delivers k code hk o hI hvf hcorr tx f (by rw [f2]; exact hcor) (by rw [f2]; exact f1) f3
          rw [hj] at a1
          cases a1
          rw [if_neg (by rw [h]; exact hv), htl] at a4
          have hmiss : ∀ c hcc p, (sentOn v done).getLast? = some c → VCDUHeader.decode c = some hcc → lastOfChannel ((done.flatMap Sent.rx).map blk) v = some p →
              p.counter.toNat ≤ hcc.counter.toNat → g.missing.toNat = hcc.counter.toNat - p.counter.toNat := by
            intro c hcc p k1 k2 k3 hle
            obtain ⟨B, hB⟩ := hsplit hch
            have hB : sentOn v (done ++ Sent.ok tx rx :: todo) = sentOn v done ++ tx :: B := hB
            have hnext : f.header.counter.toNat = hcc.counter.toNat + 1 := consecutive_next (by rw [← hB]; exact hc) k1 k2 f1'
            have hlt : f.header.counter.toNat < 2 ^ 24 := decode_counter_lt _ _ f1
            have := C35_missing_exact b _ (blk rx) f ⟨f1, f2, f3, f4⟩ p (by rw [h]; exact k3) (by rw [h]; exact hv) (by omega)
            rw [jm, this, gap, hnext]
            have : hcc.counter.toNat + 1 + 2 ^ 24 - p.counter.toNat - 1 = (hcc.counter.toNat - p.counter.toNat) + 2 ^ 24 := by omega
            rw [this, Nat.add_mod_right, Nat.mod_eq_of_lt (by omega)]
          refine .ok a4.1 ?_ ?_ ?_ (ih _ .unbroken gs hl' hc' hd' ?_)
          · unfold Bad
            rw [a4.2]
            by_cases he : f.data = tx <;> simp [he]
          · intro hu
            rcases hkn with h0 | ⟨c, hcc, p, k1, k2, k3, k4, k5⟩
            · rw [hu] at h0; cases h0
            · have := k4 hu
              apply BitVec.eq_of_toNat_eq
              rw [hmiss c hcc p k1 k2 k3 (by omega)]
              simp; omega
          · intro hb h0
            rcases hkn with h1 | ⟨c, hcc, p, k1, k2, k3, k4, k5⟩
            · rw [hb] at h1; cases h1
            · have := k5 hb
              have hm := hmiss c hcc p k1 k2 k3 (by omega)
              rw [h0] at hm
              simp at hm; omega
          · refine .inr ⟨tx, f.header, f.header, ?_, f1', ?_, fun _ => rfl, (fun h => by cases h)⟩
            · rw [sentOn_snoc, if_pos (show channelOf (Sent.ok tx rx).tx = some v from hch)]; simp [Sent.tx]
            · rw [hsnoc rx rfl, List.map_append]
              simp only [List.map_cons, List.map_nil]
              rw [lastOfChannel_snoc _ _ f.header f1, if_pos h]
        · have hch : channelOf tx ≠ some v := fun e => h ((channelOf_eq f1' v).1 e)
          rw [if_neg (by simpa using h)]
          simp only [Sent.events, if_neg hch, List.nil_append]
          refine ih _ l gs hl' hc' hd' (other hch ?_)
          intro r hr
          simp only [Sent.rx, List.mem_singleton] at hr
          subst hr
          exact ⟨_, f1, h⟩
    | damaged tx rx =>
      obtain ⟨hrl, hun⟩ := hl.damaged tx rx hmem
      cases outs with
      | nil => exact hd.elim
      | cons g gs =>
        obtain ⟨⟨f, hf, hj⟩, hd⟩ := hd
        have hd' : Decodes b k o ((done ++ [Sent.damaged tx rx]).flatMap Sent.rx) (todo.flatMap Sent.rx) gs := by rw [hsnoc rx rfl]; exact hd
        obtain ⟨jh, jm⟩ := job_header hj
        obtain ⟨f1, f2, f3, f4⟩ := hf
        have f1 : VCDUHeader.decode rx = some f.header := f1
        have f2 : f.data = rx := f2
        rw [List.flatMap_cons, List.filter_cons, jh]
        by_cases h : f.header.vcid = v
        · have hrc : channelOf rx = some v := (channelOf_eq f1 v).2 h
          have hperf := (C40_partial k code hk o.config rx rfl hI (by rw [hrl]; exact hl.length)).1 hcorr hun
          obtain ⟨g', e1, e2, e3, e4, _, e6⟩ := (C44_frame k o f (by rw [h]; exact hv)).1 _ _ (by rw [f2]; exact hperf)
          rw [hj] at e1
          cases e1
          have hbad : Bad g := .inl e4
          have hsh : ¬ Short izone trailer g := by
            unfold Short
            rw [e6 (by decide) (by decide), f2, hrl]; omega
          rw [if_pos (by simpa using h)]
          by_cases hch : channelOf tx = some v
          · simp only [Sent.events, if_pos hch, if_pos hrc, List.singleton_append]
            exact .damaged hbad hsh (ih _ .unknown gs hl' hc' hd' (.inl rfl))
          · simp only [Sent.events, if_neg hch, if_pos hrc, List.singleton_append]
            exact .stray hbad hsh (ih _ .unknown gs hl' hc' hd' (.inl rfl))
        · have hrc : channelOf rx ≠ some v := fun e => h ((channelOf_eq f1 v).1 e)
          have hrx : ∀ r ∈ Sent.rx (.damaged tx rx), ∃ x, VCDUHeader.decode r = some x ∧ x.vcid ≠ v := by
            intro r hr
            simp only [Sent.rx, List.mem_singleton] at hr
            subst hr
            exact ⟨_, f1, h⟩
          rw [if_neg (by simpa using h)]
          by_cases hch : channelOf tx = some v
          · simp only [Sent.events, if_pos hch, if_neg hrc, List.singleton_append]
            exact .lost (ih _ _ gs hl' hc' hd' (missed hch hrx))
          · simp only [Sent.events, if_neg hch, if_neg hrc, List.nil_append]
            exact ih _ l gs hl' hc' hd' (other hch hrx)

theorem lastOfChannel_mem {l : List Block} {v : U16} {q : VCDUHeader} (h : lastOfChannel l v = some q) : ∃ x ∈ l, VCDUHeader.decode x.data = some q := by
  have := List.mem_of_getLast? h
  obtain ⟨x, hx, e⟩ := List.mem_filterMap.1 (List.mem_filter.1 this).1
  exact ⟨x, hx, e⟩

/-- No frame leaves the Reed–Solomon stage shorter than a block without its check symbols. -/
theorem job_not_short {k : Codec} {code : List U8 → Prop} (hk : Bounded k code) {o : RS.Opts} {len : Nat} {ts : List Sent} (hl : Lossy code o len ts)
    (hI : 0 < o.interleave.toNat) (hvf : o.virtualFill ≤ 223 * o.interleave.toNat) (hcorr : o.correct = true) {f g : Frame}
    (hm : f.data ∈ ts.flatMap Sent.rx) (hh : VCDUHeader.decode f.data = some f.header) (hi : f.integrity = none) (hj : RS.job k o f = .ret g) :
    len - 32 * o.interleave.toNat ≤ g.data.length := by
  obtain ⟨t, ht, hrx⟩ := List.mem_flatMap.1 hm
  cases t with
  | lost tx => simp [Sent.rx] at hrx
  | ok tx rx =>
    simp only [Sent.rx, List.mem_singleton] at hrx
    subst hrx
    have hc := hl.ok _ _ ht
    have := hl.length
    have := hc.length
    have := hc.same
    obtain ⟨g', a1, _, _, a4⟩ := job_delivers k code hk o hI hvf hcorr tx f hc hh hi
    rw [hj] at a1
    cases a1
    split at a4
    · rw [a4.1]; omega
    · rw [a4.1, List.length_take]; omega
  | damaged tx rx =>
    simp only [Sent.rx, List.mem_singleton] at hrx
    subst hrx
    obtain ⟨hrl, hun⟩ := hl.damaged _ _ ht
    by_cases h63 : f.header.vcid = 63
    · rw [C44_fill k o f h63] at hj; cases hj; omega
    · have hperf := (C40_partial k code hk o.config f.data rfl hI (by rw [hrl]; exact hl.length)).1 hcorr hun
      obtain ⟨g', e1, _, _, _, _, e6⟩ := (C44_frame k o f h63).1 _ _ hperf
      rw [hj] at e1
      cases e1
      rw [e6 (by decide) (by decide), hrl]
      omega

/-- The frames of the pipeline, sent through Reed–Solomon decoding. -/
theorem decodes_of_frames (b : Build) (k : Codec) (o : RS.Opts) (rxs : List (List U8)) : ∀ (before : List (List U8)) (frames outs : List Frame),
    frames.length = rxs.length → outs.map Outcome.ret = frames.map (RS.job k o) →
    (∀ i d f, rxs[i]? = some d → frames[i]? = some f → FrameOf b ((before ++ rxs.take i).map blk) (blk d) f) → Decodes b k o before rxs outs := by
  induction rxs with
  | nil =>
    intro before frames outs h1 h2 _
    cases frames with
    | nil =>
      cases outs with
      | nil => trivial
      | cons g gs => cases h2
    | cons f fs => cases h1
  | cons rx rxs ih =>
    intro before frames outs h1 h2 h3
    cases frames with
    | nil => cases h1
    | cons f fs =>
      cases outs with
      | nil => cases h2
      | cons g gs =>
        simp only [List.map_cons, List.cons.injEq] at h2
        refine ⟨⟨f, by simpa using h3 0 rx f rfl rfl, h2.1.symm⟩, ih _ fs gs (by simpa using h1) h2.2 ?_⟩
        intro i d f' hd hf
        have := h3 (i + 1) d f' (by simpa using hd) (by simpa using hf)
        simpa using this

/-- The transmissions before the first block that is received with a header that cannot be decoded (version bits 2 or 3). -/
def heard (ts : List Sent) : List Sent := ts.takeWhile fun t => t.rx.all fun d => (VCDUHeader.decode d).isSome

theorem heard_prefix (ts : List Sent) : heard ts <+: ts := List.takeWhile_prefix _

theorem heard_rx (ts : List Sent) : (heard ts).flatMap Sent.rx = (ts.flatMap Sent.rx).takeWhile fun d => (VCDUHeader.decode d).isSome := by
  unfold heard
  induction ts with
  | nil => rfl
  | cons t ts ih =>
    have h : t.rx = [] ∨ ∃ d, t.rx = [d] := by
      cases t with
      | lost tx => exact .inl rfl
      | ok tx rx => exact .inr ⟨rx, rfl⟩
      | damaged tx rx => exact .inr ⟨rx, rfl⟩
    rw [List.takeWhile_cons, List.flatMap_cons]
    rcases h with h | ⟨d, h⟩
    · rw [h, List.all_nil, if_pos rfl, List.flatMap_cons, h, ih]; rfl
    · rw [h, List.singleton_append, List.takeWhile_cons, List.all_cons, List.all_nil, Bool.and_true]
      split
      · rw [List.flatMap_cons, h, ih]; rfl
      · rfl

theorem heard_all {ts : List Sent} (h : ∀ rx ∈ ts.flatMap Sent.rx, ∃ x, VCDUHeader.decode rx = some x) : heard ts = ts := by
  unfold heard
  induction ts with
  | nil => rfl
  | cons t ts ih =>
    rw [List.takeWhile_cons, ih (fun rx hrx => h rx (by rw [List.flatMap_cons]; exact List.mem_append_right _ hrx)), if_pos]
    rw [List.all_eq_true]
    intro d hd
    obtain ⟨x, hx⟩ := h d (by rw [List.flatMap_cons]; exact List.mem_append_left _ hd)
    rw [hx]; rfl

theorem takeWhile_of_take {α : Type} (q : α → Bool) (l : List α) (n : Nat) (h1 : ∀ x ∈ l.take n, q x = true) (h2 : l.length ≤ n ∨ ∃ x, l[n]? = some x ∧ q x = false) :
    l.takeWhile q = l.take n := by
  induction l generalizing n with
  | nil => simp
  | cons a l ih =>
    cases n with
    | zero =>
      rcases h2 with h2 | ⟨x, hx, hq⟩
      · simp at h2
      · simp only [List.getElem?_cons_zero, Option.some.injEq] at hx
        subst hx
        simp [hq]
    | succ n =>
      rw [List.take_succ_cons] at h1 ⊢
      rw [List.takeWhile_cons, if_pos (h1 a (by simp)), ih n (fun x hx => h1 x (by simp [hx])) (by simpa using h2)]

theorem ConsecutiveCounters.of_prefix {v : U16} {a c : List (List U8)} (h : ConsecutiveCounters v c) (hp : a <+: c) : ConsecutiveCounters v a where
  channel := fun d hd => h.channel d (hp.subset hd)
  next := by
    obtain ⟨r, rfl⟩ := hp
    intro i c d hc hd h1 h2 e1 e2
    refine h.next i c d hc hd ?_ ?_ e1 e2
    · rw [List.getElem?_append_left (List.getElem?_eq_some_iff.1 h1).1]; exact h1
    · rw [List.getElem?_append_left (List.getElem?_eq_some_iff.1 h2).1]; exact h2

theorem Framing.of_prefix {izone trailer : Nat} {tail : List U8} {all a c : List (List U8)} (h : Framing izone trailer tail all c) (hp : a <+: c) :
    Framing izone trailer tail all a where
  packets := h.packets
  long := fun d hd => h.long d (hp.subset hd)
  size := fun d hd => h.size d (hp.subset hd)
  bytes := by
    obtain ⟨r, rfl⟩ := hp
    refine List.IsPrefix.trans ?_ h.bytes
    rw [List.map_append, List.flatten_append]
    exact List.prefix_append _ _
  pointers := by
    obtain ⟨r, rfl⟩ := hp
    rintro before d after rfl
    exact h.pointers before d (after ++ r) (by simp)

theorem sentOn_prefix {v : U16} {a c : List Sent} (hp : a <+: c) : sentOn v a <+: sentOn v c := by
  obtain ⟨r, rfl⟩ := hp
  rw [sentOn, sentOn, List.map_append, List.filter_append]
  exact List.prefix_append _ _

/-- C83, what the pipeline does on any bad link: blocks sent on any number of channels, some of them lost without trace, some damaged beyond repair, the others received with repairable
errors (not in the header), with anything between the blocks that contains no marker. If no header received carries the counter at which the decoder fails in builds with overflow checks
(C34), then, whatever the schedule of the decoding threads, the pipeline ends and `packet_decoder` yields, for every channel `v` of packets, exactly those of the packets sent all bytes of
which arrived, unaltered and in order, before the first block with an undecodable header. -/
theorem C83_cutoff (b : Build) (k : Codec) (code : List U8 → Prop) (hk : Bounded k code) (derand : Bool) (o : RS.Opts)
    (p : RsStage.Params) (hI : 0 < o.interleave.toNat) (hvf : o.virtualFill ≤ 223 * o.interleave.toNat) (hcorr : o.correct = true)
    (r : Reader) (S : List U8) (len : Nat) (units : List (List Bool × List U8)) (post : List Bool) (ts : List Sent)
    (hr : Smooth r S) (hS : CarriesGaps derand S len units post) (hunits : units.map (·.2) = ts.flatMap Sent.rx) (hl : Lossy code o len ts)
    (hdec : b.overflowChecks = true → ∀ rx ∈ ts.flatMap Sent.rx, ∀ h, VCDUHeader.decode rx = some h → h.counter.toNat ≠ 2 ^ 24 - 1)
    (izone trailer : Nat) (hlong : 6 + izone + trailer + 2 ≤ len - 32 * o.interleave.toNat) :
    Runs b k ⟨derand, some (o, p), len⟩ r RsStage.State.init ∧
    ∀ s, Runs b k ⟨derand, some (o, p), len⟩ r s → s.aborted = none ∧
      (1 ≤ p.workers → s.cons ≠ .gone → ∃ t, Runs b k ⟨derand, some (o, p), len⟩ r t ∧ t.cons = .ended) ∧
      (s.cons = .ended → s.got.length = ((heard ts).flatMap Sent.rx).length ∧ ∃ (outs : List (List Packet)) (st : FramedPackets.State), ByFrame izone trailer s.got outs ∧
        Collects FramedPackets.next (FramedPackets.new s.got izone trailer) outs.flatten (some st) ∧
        ∀ v, v ≠ 63 → ∀ tail all, ConsecutiveCounters v (sentOn v ts) →
          Framing izone trailer tail all ((sentOn v ts).map (·.take (len - 32 * o.interleave.toNat))) →
          (((s.got.zip outs).filter (fun x => x.1.header.vcid == v)).map (·.2)).flatten.map (·.data) =
            survivors izone trailer ((heard ts).flatMap (Sent.events v (len - 32 * o.interleave.toNat))) 0 tail.length all) := by
  obtain ⟨frames, ended, h1, h2, h3, h4, h5⟩ := C52_until b derand r S len units post hr hS
  rw [hunits] at h2 h3 h4 h5
  -- the frame decoder does not panic
  have hend : ended = true := by
    cases ended with
    | true => rfl
    | false =>
      obtain ⟨hov, d, h, q, e1, e2, e3, e4, _⟩ := h5 rfl
      obtain ⟨x, hx, ex⟩ := lastOfChannel_mem e3
      obtain ⟨y, hy, rfl⟩ := List.mem_map.1 hx
      exact absurd e4 (hdec hov y (List.mem_of_mem_take hy) q ex)
  subst hend
  have hheard : (heard ts).flatMap Sent.rx = (ts.flatMap Sent.rx).take frames.length := by
    rw [heard_rx]
    apply takeWhile_of_take
    · intro x hx
      obtain ⟨i, hi⟩ := List.mem_iff_getElem?.1 hx
      have hlt := (List.getElem?_eq_some_iff.1 hi).1
      rw [List.length_take] at hlt
      rw [List.getElem?_take_of_lt (by omega)] at hi
      have := (h3 i x _ hi (List.getElem?_eq_getElem (by omega))).1
      have : VCDUHeader.decode x = some _ := this
      rw [this]; rfl
    · rcases h4 rfl with h | ⟨d, hd, hn⟩
      · exact .inl (by omega)
      · exact .inr ⟨d, hd, by rw [hn]; rfl⟩
  have hfl : frames.length = ((heard ts).flatMap Sent.rx).length := by
    rw [hheard, ← h2, List.length_map]
  have hdata : frames.map (·.data) = (heard ts).flatMap Sent.rx := by rw [h2, hheard]
  have hl' : Lossy code o len (heard ts) :=
    ⟨hl.length, fun tx rx hm => hl.ok tx rx ((heard_prefix ts).subset hm), fun tx rx hm => hl.damaged tx rx ((heard_prefix ts).subset hm)⟩
  have hrxlen : ∀ rx ∈ ts.flatMap Sent.rx, rx.length = len := by
    intro rx hrx
    rw [← hunits] at hrx
    obtain ⟨u, hu, rfl⟩ := List.mem_map.1 hrx
    exact hS.length u hu
  have hflen : ∀ f ∈ frames, f.data.length + o.virtualFill = 255 * o.interleave.toNat := by
    intro f hf
    have hm : f.data ∈ frames.map (·.data) := List.mem_map.2 ⟨f, hf, rfl⟩
    rw [h2] at hm
    rw [hrxlen f.data (List.mem_of_mem_take hm)]
    exact hl.length
  obtain ⟨outs, ho, hrun⟩ := C42_rs p k code hk o frames hI hvf (fun f hf _ => hflen f hf)
  have hF : ∀ i d f, ((heard ts).flatMap Sent.rx)[i]? = some d → frames[i]? = some f → FrameOf b ((((heard ts).flatMap Sent.rx).take i).map blk) (blk d) f := by
    intro i d f hd hf
    have hi := (List.getElem?_eq_some_iff.1 hf).1
    rw [hheard, List.getElem?_take_of_lt hi] at hd
    rw [hheard, List.take_take, Nat.min_eq_left (by omega)]
    exact h3 i d f hd hf
  have hD : Decodes b k o [] ((heard ts).flatMap Sent.rx) outs := decodes_of_frames b k o _ [] frames outs hfl ho (by
    intro i d f hd hf
    simpa using hF i d f hd hf)
  have hlen : ∀ g ∈ outs, ¬ Short izone trailer g := by
    intro g hg
    have hm : Outcome.ret g ∈ frames.map (RS.job k o) := by rw [← ho]; exact List.mem_map.2 ⟨g, hg, rfl⟩
    obtain ⟨f, hf, hj⟩ := List.mem_map.1 hm
    obtain ⟨i, hfi⟩ := List.mem_iff_getElem?.1 hf
    have hdi : ((heard ts).flatMap Sent.rx)[i]? = some f.data := by rw [← hdata, List.getElem?_map, hfi]; rfl
    obtain ⟨f1, _, f3, _⟩ := hF i _ f hdi hfi
    have := job_not_short hk hl' hI hvf hcorr (List.mem_of_getElem? hdi) f1 f3 hj
    unfold Short
    omega
  obtain ⟨pks, q1, ⟨st, q2⟩, q3⟩ := C82_channels izone trailer outs hlen
  have huniq : ∀ frames' p' o' ended, some (o, p) = some (o', p') → Outputs b ⟨derand, some (o, p), len⟩ r frames' ended → o = o' ∧ p = p' ∧ frames' = frames := by
    intro frames' p' o' ended he hout
    cases he
    exact ⟨rfl, rfl, (C52_deterministic b _ r frames' frames ended true hout h1).1⟩
  refine ⟨⟨o, p, frames, true, rfl, h1, .init⟩, ?_⟩
  rintro s ⟨o', p', frames', ended, he, hout, hreach⟩
  obtain ⟨rfl, rfl, rfl⟩ := huniq frames' p' o' ended he hout
  obtain ⟨c1, c2, c3⟩ := hrun s hreach
  refine ⟨c1, ?_, ?_⟩
  · intro hw hgone
    obtain ⟨n, t, hst, ht1, ht2⟩ := C43_completes p hw (RS.job k o) frames' (by
      intro f hf hp
      have : RS.job k o f ∈ outs.map Outcome.ret := by rw [ho]; exact List.mem_map.2 ⟨f, hf, rfl⟩
      rw [hp] at this
      obtain ⟨g, _, hg⟩ := List.mem_map.1 this
      cases hg) s hreach hgone
    have hreach' : RsStage.Reach p (RS.job k o) frames' t := by
      clear ht1 ht2 c1 c2 c3 hgone
      induction hst with
      | zero => exact hreach
      | succ _ st ih => exact .step (ih hreach) st
    exact ⟨t, ⟨o, p, frames', true, rfl, h1, hreach'⟩, ht1⟩
  · intro hc
    rw [c3 hc]
    refine ⟨by have := congrArg List.length ho; simp only [List.length_map] at this; omega, pks, st, q1, q2, ?_⟩
    intro v hv tail all hcon hfr
    have hpre := sentOn_prefix (v := v) (heard_prefix ts)
    refine q3 v _ tail all (by rw [events_sent]; exact hfr.of_prefix (hpre.map _)) ?_
    have hfrlong : 6 + izone + trailer + 2 ≤ len := by omega
    exact arrives_pipeline b k code hk o len hI hvf hcorr izone trailer hfrlong v hv (heard ts) [] .unknown outs hl' (hcon.of_prefix hpre) hD (.inl rfl)

/-- What must hold of the whole receive path: the packets of channel `v` in the output of the decoder for the frames `got`, grouped by frame in `outs`. -/
def packetsOf (v : U16) (got : List Frame) (outs : List (List Packet)) : List (List U8) :=
  (((got.zip outs).filter (fun x => x.1.header.vcid == v)).map (·.2)).flatten.map (·.data)

/-- C83, the full statement: on a bad link every packet of every channel all bytes of which arrived (in blocks received intact or with errors within the correction capability) is
delivered, unaltered and in order, and no other. -/
def C83_full (b : Build) : Prop :=
  ∀ (k : Codec) (code : List U8 → Prop), Bounded k code → ∀ (derand : Bool) (o : RS.Opts) (p : RsStage.Params), 0 < o.interleave.toNat →
    o.virtualFill ≤ 223 * o.interleave.toNat → o.correct = true → ∀ (r : Reader) (S : List U8) (len : Nat) (units : List (List Bool × List U8)) (post : List Bool) (ts : List Sent),
    Smooth r S → CarriesGaps derand S len units post → units.map (·.2) = ts.flatMap Sent.rx → Lossy code o len ts →
    (b.overflowChecks = true → ∀ rx ∈ ts.flatMap Sent.rx, ∀ h, VCDUHeader.decode rx = some h → h.counter.toNat ≠ 2 ^ 24 - 1) →
    ∀ (izone trailer : Nat), 6 + izone + trailer + 2 ≤ len - 32 * o.interleave.toNat →
    ∀ s, Runs b k ⟨derand, some (o, p), len⟩ r s → s.cons = .ended →
      ∃ (outs : List (List Packet)) (st : FramedPackets.State), ByFrame izone trailer s.got outs ∧
        Collects FramedPackets.next (FramedPackets.new s.got izone trailer) outs.flatten (some st) ∧
        ∀ v, v ≠ 63 → ∀ tail all, ConsecutiveCounters v (sentOn v ts) →
          Framing izone trailer tail all ((sentOn v ts).map (·.take (len - 32 * o.interleave.toNat))) →
          packetsOf v s.got outs = survivors izone trailer (ts.flatMap (Sent.events v (len - 32 * o.interleave.toNat))) 0 tail.length all

/-- C83, the part that holds: the full statement for transmissions in which every header received can be decoded; and the pipeline does end. -/
theorem C83_partial (b : Build) (k : Codec) (code : List U8 → Prop) (hk : Bounded k code) (derand : Bool) (o : RS.Opts)
    (p : RsStage.Params) (hI : 0 < o.interleave.toNat) (hvf : o.virtualFill ≤ 223 * o.interleave.toNat) (hcorr : o.correct = true)
    (r : Reader) (S : List U8) (len : Nat) (units : List (List Bool × List U8)) (post : List Bool) (ts : List Sent)
    (hr : Smooth r S) (hS : CarriesGaps derand S len units post) (hunits : units.map (·.2) = ts.flatMap Sent.rx) (hl : Lossy code o len ts)
    (hdec : ∀ rx ∈ ts.flatMap Sent.rx, ∃ h, VCDUHeader.decode rx = some h ∧ (b.overflowChecks = true → h.counter.toNat ≠ 2 ^ 24 - 1))
    (izone trailer : Nat) (hlong : 6 + izone + trailer + 2 ≤ len - 32 * o.interleave.toNat) :
    Runs b k ⟨derand, some (o, p), len⟩ r RsStage.State.init ∧
    ∀ s, Runs b k ⟨derand, some (o, p), len⟩ r s → s.aborted = none ∧
      (1 ≤ p.workers → s.cons ≠ .gone → ∃ t, Runs b k ⟨derand, some (o, p), len⟩ r t ∧ t.cons = .ended) ∧
      (s.cons = .ended → ∃ (outs : List (List Packet)) (st : FramedPackets.State), ByFrame izone trailer s.got outs ∧
        Collects FramedPackets.next (FramedPackets.new s.got izone trailer) outs.flatten (some st) ∧
        ∀ v, v ≠ 63 → ∀ tail all, ConsecutiveCounters v (sentOn v ts) →
          Framing izone trailer tail all ((sentOn v ts).map (·.take (len - 32 * o.interleave.toNat))) →
          packetsOf v s.got outs = survivors izone trailer (ts.flatMap (Sent.events v (len - 32 * o.interleave.toNat))) 0 tail.length all) := by
  obtain ⟨h1, h2⟩ := C83_cutoff b k code hk derand o p hI hvf hcorr r S len units post ts hr hS hunits hl
    (by
      intro hov rx hrx h e
      obtain ⟨x, hx, hc⟩ := hdec rx hrx
      rw [e] at hx; cases hx
      exact hc hov) izone trailer hlong
  rw [heard_all (fun rx hrx => let ⟨x, hx, _⟩ := hdec rx hrx; ⟨x, hx⟩)] at h2
  refine ⟨h1, fun s hs => ?_⟩
  obtain ⟨a1, a2, a3⟩ := h2 s hs
  exact ⟨a1, a2, fun hc => (a3 hc).2⟩

/-! ## Concrete: four frames of channel 1 with noise between them; the first is damaged, the last lost -/

theorem firstAt_of_check {m s : List Bool} {start n : Nat} (h1 : m = (s.drop (start + n)).take m.length)
    (h2 : (List.range' start n).all (fun j => m != (s.drop j).take m.length) = true) : FirstAt m s start (start + n) := by
  refine ⟨by omega, List.prefix_iff_eq_take.2 h1, ?_⟩
  intro j hj1 hj2 hoc
  have := List.all_eq_true.1 h2 j (List.mem_range'_1.2 ⟨hj1, hj2⟩)
  rw [← List.prefix_iff_eq_take.1 hoc] at this
  simp at this

theorem first_of_index {m : List Bool} {asm : List U8} {s : List Bool} {units : List (List Bool × List U8)}
    (h : ∀ i, i < units.length → m = (s.drop ((unitBits asm (units.take i)).length + (units.getD i ([], [])).1.length)).take m.length ∧
      (List.range' (unitBits asm (units.take i)).length (units.getD i ([], [])).1.length).all (fun j => m != (s.drop j).take m.length) = true) :
    ∀ before u after, units = before ++ u :: after → FirstAt m s (unitBits asm before).length ((unitBits asm before).length + u.1.length) := by
  intro before u after e
  have := h before.length (by rw [e]; simp)
  rw [e] at this
  simp only [List.take_left', List.getD_eq_getElem?_getD, List.getElem?_append_right (Nat.le_refl _), Nat.sub_self, List.getElem?_cons_zero, Option.getD_some] at this
  exact firstAt_of_check this.1 this.2

namespace BadLink

/-- The end of a packet begun earlier, and a third packet. -/
def tail : List U8 := List.replicate 215 3#8
def P3 : List U8 := [0x08#8, 0x05#8, 0xc0#8, 0x02#8, 0x00#8, 0xd0#8] ++ List.replicate 209 8#8
def T0 : List U8 := [0x40#8, 0x41#8, 0#8, 0#8, 4#8, 0#8, 7#8, 0xff#8] ++ tail ++ List.replicate 32 0#8
def T3 : List U8 := [0x40#8, 0x41#8, 0#8, 0#8, 7#8, 0#8, 0#8, 0#8] ++ P3 ++ List.replicate 32 0#8
/-- `T0` as received: garbage, but the version bits are valid; and garbage in which they are not. -/
def R0 : List U8 := [0x40#8, 0x41#8, 9#8, 9#8] ++ List.replicate 251 0xf0#8
def Q0 : List U8 := List.replicate 255 0xff#8

def opts : RS.Opts := ⟨1, 0, true, true⟩
def cfg : Config := ⟨false, some (opts, ⟨4, 2⟩), 255⟩

def sent (rx : List U8) : List Sent := [.damaged T0 rx, .ok exT1 exT1, .ok exT2 exR2, .lost T3]
def units (rx : List U8) : List (List Bool × List U8) := [(bits [0xaa#8], rx), ([], exT1), (bits [0x1a#8, 0xcf#8], exR2)]
def stream (rx : List U8) : List U8 := [0xaa#8] ++ Sync.ASM ++ rx ++ (Sync.ASM ++ exT1) ++ ([0x1a#8, 0xcf#8] ++ Sync.ASM ++ exR2)

theorem carries (rx : List U8) (hrx : rx = R0 ∨ rx = Q0) : CarriesGaps false (stream rx) 255 (units rx) [] where
  length := by rcases hrx with rfl | rfl <;> decide +kernel
  bits := by
    show bits ([0xaa#8] ++ Sync.ASM ++ rx ++ (Sync.ASM ++ exT1) ++ ([0x1a#8, 0xcf#8] ++ Sync.ASM ++ exR2)) =
      ([(bits [0xaa#8], rx), ([], exT1), (bits [0x1a#8, 0xcf#8], exR2)].flatMap fun u => u.1 ++ bits Sync.ASM ++ bits u.2) ++ []
    simp only [bits_append, List.flatMap_cons, List.flatMap_nil, List.append_nil, List.nil_append, List.append_assoc]
  first := first_of_index (by rcases hrx with rfl | rfl <;> decide +kernel)
  last := by
    intro i hi hoc
    have := hoc.length_le
    have h1 : (unitBits Sync.ASM (units rx)).length = 6240 := by rcases hrx with rfl | rfl <;> decide +kernel
    have h2 : (Spec.bits (stream rx)).length = 6240 := by rcases hrx with rfl | rfl <;> decide +kernel
    rw [List.length_drop, show (Spec.bits Sync.ASM).length = 32 from by decide, h2] at this
    rw [h1] at hi
    omega

theorem lossy (rx : List U8) (hrx : rx = R0 ∨ rx = Q0) : Lossy exTwoCode opts 255 (sent rx) where
  length := by decide
  ok := by
    intro tx r hm
    simp only [sent, List.mem_cons, List.not_mem_nil, or_false, reduceCtorEq, false_or, Sent.ok.injEq] at hm
    rcases hm with ⟨rfl, rfl⟩ | ⟨rfl, rfl⟩
    · exact exTwoChannel_correctable (exT1, exT1) (by simp [exTwoChannel])
    · exact exTwoChannel_correctable (exT2, exR2) (by simp [exTwoChannel])
  damaged := by
    intro tx r hm
    simp only [sent, List.mem_cons, List.not_mem_nil, or_false, reduceCtorEq, Sent.damaged.injEq] at hm
    obtain ⟨rfl, rfl⟩ := hm
    refine ⟨by rcases hrx with rfl | rfl <;> decide +kernel, 0, by decide, ?_⟩
    rintro w (rfl | rfl) <;> rcases hrx with rfl | rfl <;> decide +kernel

theorem consecutive (rx : List U8) : ConsecutiveCounters 1 (sentOn 1 (sent rx)) := by
  have e : sentOn 1 (sent rx) = [T0, exT1, exT2, T3] := by
    show [T0, exT1, exT2, T3].filter (fun d => channelOf d == some 1) = _
    decide +kernel
  rw [e]
  have a0 : (VCDUHeader.decode T0).map (fun h => (h.vcid, h.counter)) = some (1, 4#32) := by decide +kernel
  have a1 : (VCDUHeader.decode exT1).map (fun h => (h.vcid, h.counter)) = some (1, 5#32) := by decide +kernel
  have a2 : (VCDUHeader.decode exT2).map (fun h => (h.vcid, h.counter)) = some (1, 6#32) := by decide +kernel
  have a3 : (VCDUHeader.decode T3).map (fun h => (h.vcid, h.counter)) = some (1, 7#32) := by decide +kernel
  have key : ∀ {d : List U8} {x : U16 × U32}, (VCDUHeader.decode d).map (fun h => (h.vcid, h.counter)) = some x →
      ∃ h, VCDUHeader.decode d = some h ∧ h.vcid = x.1 ∧ h.counter = x.2 := by
    intro d x h
    cases e : VCDUHeader.decode d with
    | none => rw [e] at h; cases h
    | some y => rw [e] at h; cases h; exact ⟨y, rfl, rfl, rfl⟩
  obtain ⟨h0, b0, c0, d0⟩ := key a0
  obtain ⟨h1, b1, c1, d1⟩ := key a1
  obtain ⟨h2, b2, c2, d2⟩ := key a2
  obtain ⟨h3, b3, c3, d3⟩ := key a3
  constructor
  · intro d hd
    simp only [List.mem_cons, List.not_mem_nil, or_false] at hd
    rcases hd with rfl | rfl | rfl | rfl
    · exact ⟨_, b0, c0⟩
    · exact ⟨_, b1, c1⟩
    · exact ⟨_, b2, c2⟩
    · exact ⟨_, b3, c3⟩
  · intro i c d hc hd g1 g2 e1 e2
    match i with
    | 0 =>
      simp only [List.getElem?_cons_zero, List.getElem?_cons_succ, Option.some.injEq] at g1 g2
      subst g1 g2
      rw [b0] at e1; rw [b1] at e2; cases e1; cases e2
      rw [d0, d1]; decide
    | 1 =>
      simp only [List.getElem?_cons_zero, List.getElem?_cons_succ, Option.some.injEq] at g1 g2
      subst g1 g2
      rw [b1] at e1; rw [b2] at e2; cases e1; cases e2
      rw [d1, d2]; decide
    | 2 =>
      simp only [List.getElem?_cons_zero, List.getElem?_cons_succ, Option.some.injEq] at g1 g2
      subst g1 g2
      rw [b2] at e1; rw [b3] at e2; cases e1; cases e2
      rw [d2, d3]; decide
    | n + 3 => simp at g2

theorem framing (rx : List U8) : Framing 0 0 tail [exP1, exP2, P3] ((sentOn 1 (sent rx)).map (·.take 223)) := by
  have e : (sentOn 1 (sent rx)).map (·.take 223) = [T0.take 223, exT1.take 223, exT2.take 223, T3.take 223] := by
    show ([T0, exT1, exT2, T3].filter (fun d => channelOf d == some 1)).map (·.take 223) = _
    decide +kernel
  rw [e]
  exact
  { packets := by decide +kernel
    long := by decide +kernel
    size := by decide +kernel
    bytes := by decide +kernel
    pointers := pointers_of_index (by decide +kernel) }

theorem smooth (rx : List U8) (hrx : rx = R0 ∨ rx = Q0) : Smooth ⟨[.data (stream rx)], .eof⟩ (stream rx) :=
  ⟨by
    intro e he
    simp only [List.mem_cons, List.not_mem_nil, or_false] at he
    subst he
    exact ⟨_, by rcases hrx with rfl | rfl <;> decide +kernel, rfl⟩, by simp [evBytes, Ev.bytes], rfl⟩

theorem counters (rx : List U8) (hrx : rx = R0 ∨ rx = Q0) : ∀ d ∈ (sent rx).flatMap Sent.rx, ∀ h, VCDUHeader.decode d = some h → h.counter.toNat ≠ 2 ^ 24 - 1 := by
  have := (by rcases hrx with rfl | rfl <;> decide +kernel :
    ∀ d ∈ (sent rx).flatMap Sent.rx, ((VCDUHeader.decode d).map fun h => h.counter.toNat != 2 ^ 24 - 1) ≠ some false)
  intro d hd h e hc
  have := this d hd
  rw [e] at this
  simp [hc] at this

end BadLink

/-- C28, C52 with gaps: their hypotheses hold for the stream with noise before two of its three blocks. -/
example (b : Build) : ∃ frames, Outputs b ⟨false, none, 255⟩ ⟨[.data (BadLink.stream BadLink.R0)], .eof⟩ frames true ∧
    frames.map (·.data) = [BadLink.R0, exT1, exR2] := by
  obtain ⟨frames, ended, h1, h2, _, h4, h5⟩ := C52_gaps b false _ _ 255 _ [] (BadLink.smooth _ (.inl rfl)) (BadLink.carries _ (.inl rfl)) (by
    intro u hu
    exact Option.isSome_iff_exists.1 ((by decide +kernel : ∀ u ∈ BadLink.units BadLink.R0, (VCDUHeader.decode u.2).isSome = true) u hu))
  cases ended with
  | true => exact ⟨frames, h1, by rw [h2, h4 rfl, List.take_length]; rfl⟩
  | false =>
    obtain ⟨_, d, h, q, _, _, e3, e4, _⟩ := h5 rfl
    obtain ⟨x, hx, ex⟩ := lastOfChannel_mem e3
    obtain ⟨y, hy, rfl⟩ := List.mem_map.1 hx
    exact absurd e4 (BadLink.counters _ (.inl rfl) y (List.mem_of_mem_take hy) q ex)

/-- Both packets sent in frames that arrive are delivered. -/
example (b : Build) : (∃ s, Runs b (bddCodec exTwoCode) BadLink.cfg ⟨[.data (BadLink.stream BadLink.R0)], .eof⟩ s ∧ s.cons = .ended) ∧
    ∀ s, Runs b (bddCodec exTwoCode) BadLink.cfg ⟨[.data (BadLink.stream BadLink.R0)], .eof⟩ s → s.cons = .ended →
      ∃ (outs : List (List Packet)) (st : FramedPackets.State), Collects FramedPackets.next (FramedPackets.new s.got 0 0) outs.flatten (some st) ∧
        packetsOf 1 s.got outs = [exP1, exP2] := by
  obtain ⟨hs, h⟩ := C83_partial b _ _ exTwoCode_bounded false BadLink.opts ⟨4, 2⟩ (by decide) (by decide) rfl _ _ 255 _ []
    (BadLink.sent BadLink.R0) (BadLink.smooth _ (.inl rfl)) (BadLink.carries _ (.inl rfl)) rfl (BadLink.lossy _ (.inl rfl))
    (by
      intro rx hrx
      have := (by decide +kernel : ∀ d ∈ (BadLink.sent BadLink.R0).flatMap Sent.rx, (VCDUHeader.decode d).isSome = true) rx hrx
      obtain ⟨x, hx⟩ := Option.isSome_iff_exists.1 this
      exact ⟨x, hx, fun _ => BadLink.counters _ (.inl rfl) rx hrx x hx⟩) 0 0 (by decide)
  constructor
  · obtain ⟨_, a, _⟩ := h _ hs
    exact a (by decide) (by decide)
  · intro s hs hc
    obtain ⟨_, _, a⟩ := h s hs
    obtain ⟨outs, st, _, a2, a3⟩ := a hc
    refine ⟨outs, st, a2, (a3 1 (by decide) _ _ (BadLink.consecutive _) (BadLink.framing _)).trans ?_⟩
    decide +kernel

/-- C83 violated: the same transmission, but the version bits of the damaged frame are destroyed: the pipeline ends at it and yields nothing at all, although the frames that carry two
complete packets arrive undamaged afterwards. -/
theorem C83_violated (b : Build) : ¬ C83_full b := by
  intro h
  obtain ⟨hs, hcut⟩ := C83_cutoff b _ _ exTwoCode_bounded false BadLink.opts ⟨4, 2⟩ (by decide) (by decide) rfl _ _ 255 _ []
    (BadLink.sent BadLink.Q0) (BadLink.smooth _ (.inr rfl)) (BadLink.carries _ (.inr rfl)) rfl (BadLink.lossy _ (.inr rfl))
    (fun _ => BadLink.counters _ (.inr rfl)) 0 0 (by decide)
  obtain ⟨t, ht, hend⟩ := (hcut _ hs).2.1 (by decide) (by decide)
  have hgot := ((hcut t ht).2.2 hend).1
  rw [show ((heard (BadLink.sent BadLink.Q0)).flatMap Sent.rx).length = 0 from by decide +kernel] at hgot
  obtain ⟨outs, st, hl, _, hp⟩ := h _ _ exTwoCode_bounded false BadLink.opts ⟨4, 2⟩ (by decide) (by decide) rfl _ _ 255 _ [] (BadLink.sent BadLink.Q0)
    (BadLink.smooth _ (.inr rfl)) (BadLink.carries _ (.inr rfl)) rfl (BadLink.lossy _ (.inr rfl)) (fun _ => BadLink.counters _ (.inr rfl)) 0 0 (by decide) t ht hend
  have := hp 1 (by decide) _ _ (BadLink.consecutive _) (BadLink.framing _)
  rw [packetsOf, List.eq_nil_of_length_eq_zero hgot] at this
  have := congrArg List.length this
  rw [show (survivors 0 0 ((BadLink.sent BadLink.Q0).flatMap (Sent.events 1 (255 - 32 * BadLink.opts.interleave.toNat))) 0 BadLink.tail.length [exP1, exP2, BadLink.P3]).length = 2
    from by decide +kernel] at this
  simp at this

end Ccsds
