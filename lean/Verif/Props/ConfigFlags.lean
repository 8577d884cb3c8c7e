import Verif.Props.FramingConfig
/-!
# C87: with a configuration file the associated flags of `ccsds framing` are ignored
-/
namespace Ccsds
open Cmd Spec Framing

/-! ## Specification -/

/-- The two command lines differ at most in the flags that the configuration file has entries for: `--length`, `--pn`, `--rs`, `--rs-virtualfill`. -/
structure SameOtherwise (a a' : Args) : Prop where
  keepFill : a.keepFill = a'.keepFill
  detect : a.detect = a'.detect
  correct : a.correct = a'.correct
  threads : a.threads = a'.threads
  buffersize : a.buffersize = a'.buffersize
  incl : a.incl = a'.incl
  excl : a.excl = a'.excl
  output : a.output = a'.output

/-- Full statement (help of `--config`: "If provided assiciated flags are ignored"): two such command lines with the same configuration file can end in the
same ways. -/
def C87_full : Prop :=
  ∀ (b : Build) (k : Codec) (a a' : Args) (c : FramingConfig) (workers : Nat) (r : Reader) (o : Option (Framing.Summary × List (List U8))),
    SameOtherwise a a' → FramingRun b k a (some c) workers r o → FramingRun b k a' (some c) workers r o

theorem framingRun_congr {b : Build} {k : Codec} {a a' : Args} {c c' : FramingConfig} {workers : Nat} {r : Reader}
    {o : Option (Framing.Summary × List (List U8))} (e : withConfig a c = withConfig a' c') (h : FramingRun b k a (some c) workers r o) :
    FramingRun b k a' (some c') workers r o := by
  cases h with
  | zeroLength h => exact .zeroLength (by simpa [e] using h)
  | ran h h' => exact .ran (by simpa [e] using h) (by simpa [e] using h')

/-- `--length` and `--pn` are always ignored; `--rs` and `--rs-virtualfill` are ignored if the file has an `rs` entry. -/
theorem C87_partial (b : Build) (k : Codec) (a a' : Args) (c : FramingConfig) (workers : Nat) (r : Reader) (o : Option (Framing.Summary × List (List U8)))
    (hs : SameOtherwise a a') (hc : c.rs ≠ none ∨ (a.reedSolomon = a'.reedSolomon ∧ a.virtualfill = a'.virtualfill)) :
    FramingRun b k a (some c) workers r o ↔ FramingRun b k a' (some c) workers r o := by
  have e : withConfig a c = withConfig a' c := by
    cases a; cases a'; cases hs; unfold withConfig
    cases hr : c.rs with
    | some x => simp_all
    | none =>
      rcases hc with h | ⟨h, h'⟩
      · exact absurd hr h
      · simp_all
  exact ⟨framingRun_congr e, framingRun_congr e.symm⟩

/-- Without an `rs` entry, `--rs` and `--rs-virtualfill` stand in for it. -/
theorem C87_exact (b : Build) (k : Codec) (a : Args) (c : FramingConfig) (workers : Nat) (r : Reader) (o : Option (Framing.Summary × List (List U8)))
    (hc : c.rs = none) :
    FramingRun b k a (some c) workers r o ↔
      FramingRun b k a (some { c with rs := a.reedSolomon.map fun i => (i.toNat, a.virtualfill) }) workers r o := by
  have e : withConfig a c = withConfig a { c with rs := a.reedSolomon.map fun i => (i.toNat, a.virtualfill) } := by
    unfold withConfig
    cases hr : a.reedSolomon with
    | none => simp [hc]
    | some i => simp [hc]
  exact ⟨framingRun_congr e, framingRun_congr e.symm⟩

/-- The flags that the help texts call "Ignored unless --rs" (and the other two that concern Reed-Solomon only) are: if neither the command line nor the file
asks for Reed-Solomon, they have no effect. -/
theorem C87_unless_rs (b : Build) (k : Codec) (a a' : Args) (c : Option FramingConfig) (workers workers' : Nat) (r : Reader)
    (o : Option (Framing.Summary × List (List U8)))
    (hlen : a.length = a'.length) (hpn : a.pn = a'.pn) (hfill : a.keepFill = a'.keepFill) (hin : a.incl = a'.incl) (hex : a.excl = a'.excl)
    (hout : a.output = a'.output) (hc : ∀ x, c = some x → x.rs = none) (ha : a.reedSolomon = none) (ha' : a'.reedSolomon = none) :
    FramingRun b k a c workers r o ↔ FramingRun b k a' c workers' r o := by
  have key : ∀ (a a' : Args) (workers workers' : Nat), a.length = a'.length → a.pn = a'.pn → a.keepFill = a'.keepFill → a.incl = a'.incl →
      a.excl = a'.excl → a.output = a'.output → a.reedSolomon = none → a'.reedSolomon = none →
      FramingRun b k a c workers r o → FramingRun b k a' c workers' r o := by
    clear hlen hpn hfill hin hex hout ha ha'
    intro a a' workers workers' hlen hpn hfill hin hex hout ha ha' h
    have e : ∀ a : Args, a.reedSolomon = none → (c.map (withConfig a)).getD a = { a with length := (c.map (·.length)).getD a.length, pn := (c.map (·.pn)).getD a.pn } := by
      intro a ha
      cases c with
      | none => rfl
      | some x => simp [withConfig, hc x rfl]
    cases h with
    | zeroLength h => exact .zeroLength (by rw [e _ ha] at h; rw [e _ ha']; simpa [hlen] using h)
    | ran h h' =>
      refine .ran (by rw [e _ ha] at h; rw [e _ ha']; simpa [hlen] using h) ?_
      rw [e _ ha] at h'
      rw [e _ ha']
      cases h' with
      | rs hh => simp [ha] at hh
      | plain _ ho hf =>
        refine .plain ha' ?_ (finishes_congr
          (a := { a with length := (c.map (·.length)).getD a.length, pn := (c.map (·.pn)).getD a.pn }) ?_ hfill hin hex hout hf)
        · obtain ⟨st, hy, he⟩ := ho
          refine ⟨st, ?_, he⟩
          simpa [config, ha, ha', hlen, hpn] using hy
        · simp [hlen]
  exact ⟨key a a' _ _ hlen hpn hfill hin hex hout ha ha', key a' a _ _ hlen.symm hpn.symm hfill.symm hin.symm hex.symm hout.symm ha' ha⟩

/-- With `--rs` and no `rs` entry no frame is reported as "not performed" (unless fill frames are kept): Reed-Solomon is in force. -/
theorem C87_rs_flag_kept (b : Build) (k : Codec) (a : Args) (c : FramingConfig) (workers : Nat) (r : Reader) (s : Framing.Summary) (w : List (List U8)) (i : U8)
    (hc : c.rs = none) (hi : a.reedSolomon = some i) (hk : a.keepFill = false)
    (h : FramingRun b k a (some c) workers r (some (s, w))) : s.tally.notPerformed = 0 := by
  generalize hs : some (s, w) = o at h
  cases h with
  | zeroLength => cases hs
  | @ran s' w' h1 h2 =>
    cases hs
    simp only [Option.map_some, Option.getD_some] at h2
    have e : withConfig a c = { a with length := c.length, pn := c.pn } := by unfold withConfig; simp only [hc]
    rw [e] at h2
    cases h2 with
    | plain hh => simp [hi] at hh
    | rs hh ho hcons hf =>
      obtain ⟨o, p, frames, ended, _, _, hreach⟩ := ho
      obtain ⟨k1, _⟩ := (C57_summary _ _).1 s w hf
      rw [k1.total.notPerformed, List.countP_eq_zero]
      intro g hg hn
      have hn : g.integrity = none := by simpa using hn
      obtain ⟨hg, hw⟩ := List.mem_filter.1 hg
      have hw := (of_decide_eq_true hw).1
      have hpre := C42_prefix p _ frames _ hreach
      have hm : Outcome.ret g ∈ frames.map (RS.job k o) := hpre.subset (List.mem_map_of_mem hg)
      obtain ⟨f, _, hj⟩ := List.mem_map.1 hm
      by_cases hv : f.header.vcid = 63
      · rw [C44_fill k o f hv] at hj
        cases hj
        have := hw hv
        rw [hk] at this; cases this
      · rcases Classical.em (∃ i d, RS.perform k o.config f.data = .ret (.ok (i, d))) with ⟨i, d, hp⟩ | hp
        · obtain ⟨f', e1, _, _, e4, _⟩ := (C44_frame k o f hv).1 i d hp
          rw [hj] at e1
          cases e1
          rw [hn] at e4; cases e4
        · have := (C44_frame k o f hv).2 (fun i d hh => hp ⟨i, d, hh⟩)
          rw [hj] at this; cases this

/-! ## Witness -/
namespace ConfigFlagsEx

def args : Args := ⟨0, false, false, none, false, false, 0, none, 16, [], [], false⟩
def cfg : FramingConfig := ⟨none, 0#16, 8, true, none⟩

theorem run (b : Build) (k : Codec) : ∃ s w, FramingRun b k args (some cfg) 1 exPipeReader (some (s, w)) ∧ s.tally.notPerformed = 2 := by
  obtain ⟨frames, h1, h2, h3⟩ := exPipe_decoded b
  have hl : frames.length = 2 := by simpa [exPipeFrames] using congrArg List.length h2
  have e : withConfig args cfg = { args with length := 8, pn := true } := rfl
  obtain ⟨_, _, h4, _⟩ := C57_summary { args with length := 8, pn := true } frames
  obtain ⟨s, w, hf⟩ := h4.2 (by intro h; cases h)
  refine ⟨s, w, .ran (by simp [e]) ?_, ?_⟩
  · simp only [Option.map_some, Option.getD_some, e]
    exact .plain rfl h1 hf
  · obtain ⟨k1, _⟩ := (C57_summary _ frames).1 s w hf
    rw [k1.total.notPerformed]
    have hw : wanted { args with length := 8, pn := true } frames = frames := by
      unfold wanted
      rw [List.filter_eq_self.2]
      intro f hf
      have hd : f.data ∈ exPipeFrames := by rw [← h2]; exact List.mem_map_of_mem hf
      have hv := (by decide +kernel : ∀ d ∈ exPipeFrames, (VCDUHeader.decode d).map (·.vcid) = some 43#16) _ hd
      rw [(h3 f hf).1] at hv
      simp only [Option.map_some, Option.some.injEq] at hv
      simp [Wanted, args, hv]
    rw [hw, List.countP_eq_length.2, hl]
    intro f hf
    simp [(h3 f hf).2]

end ConfigFlagsEx

open ConfigFlagsEx in
/-- The same stream and configuration file, without and with `--rs 1`: two unchecked frames are reported without, none with the flag. -/
theorem C87_violated : ¬ C87_full := by
  intro h
  obtain ⟨s, w, hr, h2⟩ := run ⟨true⟩ ⟨fun _ => false, fun _ => (.ok, none)⟩
  have := h _ _ args { args with reedSolomon := some 1#8 } cfg 1 exPipeReader _ ⟨rfl, rfl, rfl, rfl, rfl, rfl, rfl, rfl⟩ hr
  have := C87_rs_flag_kept _ _ _ _ _ _ s w 1#8 rfl rfl rfl this
  omega

/-- The hypotheses of `C87_partial` are met by a run with two frames and different `--length` and `--pn`. -/
example (b : Build) (k : Codec) : ∃ s w, FramingRun b k { ConfigFlagsEx.args with length := 100, pn := true } (some ConfigFlagsEx.cfg) 1 exPipeReader (some (s, w)) ∧
    s.tally.notPerformed = 2 := by
  obtain ⟨s, w, h, h'⟩ := ConfigFlagsEx.run b k
  exact ⟨s, w, (C87_partial b k ConfigFlagsEx.args { ConfigFlagsEx.args with length := 100, pn := true } _ _ _ _ ⟨rfl, rfl, rfl, rfl, rfl, rfl, rfl, rfl⟩ (.inr ⟨rfl, rfl⟩)).1 h, h'⟩

end Ccsds
