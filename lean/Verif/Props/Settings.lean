import Verif.Model.Builders
import Verif.Props.LinkFraming
/-!
# C130  The options of the pipeline and of the Reed–Solomon algorithm
-/
namespace Ccsds
open Spec Pipeline

namespace Spec

/-! ## Specification -/

/-- The value of the last of the settings that give one, or the default. -/
def latest {σ α : Type} (f : σ → Option α) (default : α) (l : List σ) : α := ((l.filterMap f).getLast?).getD default

example : latest (fun n : Nat => if n < 10 then some (n + 100) else none) 0 [3, 12, 4, 77] = 104 := rfl
example : latest (fun n : Nat => if n < 10 then some (n + 100) else none) 7 [12, 77] = 7 := rfl

end Spec

/-- A call of one of the `with_…` functions of `RsOpts`. -/
inductive RsSetting where
  | virtualFill (n : Nat)
  | numThreads (n : Nat)
  | correction (e : Bool)
  | detection (e : Bool)
  | bufferSize (n : Nat)

namespace RsSetting
def apply (o : RsOpts) : RsSetting → RsOpts
  | .virtualFill n => o.withVirtualFill n
  | .numThreads n => o.withNumThreads n
  | .correction e => o.withCorrection e
  | .detection e => o.withDetection e
  | .bufferSize n => o.withBufferSize n
def fill? : RsSetting → Option Nat | .virtualFill n => some n | _ => none
def threads? : RsSetting → Option Nat | .numThreads n => some n | _ => none
def correct? : RsSetting → Option Bool | .correction e => some e | _ => none
def detect? : RsSetting → Option Bool | .detection e => some e | _ => none
def buffer? : RsSetting → Option Nat | .bufferSize n => some n | _ => none
end RsSetting

/-- `RsOpts::new(interleave)` followed by any calls of the `with_…` functions -/
def rsOpts (interleave : U8) (settings : List RsSetting) : RsOpts := settings.foldl RsSetting.apply (RsOpts.new interleave)

/-- A call of one of the `with_…` functions of `DefaultReedSolomon`. -/
inductive AlgSetting where
  | virtualFill (n : Nat)
  | correction (e : Bool)
  | detection (e : Bool)
  | removeParity (e : Bool)

namespace AlgSetting
def apply (c : RS.Config) : AlgSetting → RS.Config
  | .virtualFill n => c.withVirtualFill n
  | .correction e => c.withCorrection e
  | .detection e => c.withDetection e
  | .removeParity e => c.withRemoveParity e
def fill? : AlgSetting → Option Nat | .virtualFill n => some n | _ => none
def correct? : AlgSetting → Option Bool | .correction e => some e | _ => none
def detect? : AlgSetting → Option Bool | .detection e => some e | _ => none
def remove? : AlgSetting → Option Bool | .removeParity e => some e | _ => none
end AlgSetting

/-- `DefaultReedSolomon::new(interleave)` followed by any calls of the `with_…` functions -/
def algorithm (interleave : U8) (settings : List AlgSetting) : RS.Config := settings.foldl AlgSetting.apply (RS.Config.new interleave)

/-- A call of one of the functions of `Pipeline`. -/
inductive PipelineSetting where
  | noDerandomization
  | rs (o : RsOpts)

namespace PipelineSetting
def apply (c : PipelineOpts) : PipelineSetting → PipelineOpts
  | .noDerandomization => c.withoutDerandomization
  | .rs o => c.withRs o
def rs? : PipelineSetting → Option (Option RsOpts) | .rs o => some (some o) | _ => none
def plain? : PipelineSetting → Option Bool | .noDerandomization => some false | _ => none
end PipelineSetting

/-- `Pipeline::new(length)` followed by any calls -/
def pipelineOpts (length : Nat) (settings : List PipelineSetting) : PipelineOpts := settings.foldl PipelineSetting.apply (PipelineOpts.new length)

/-! ## Proofs -/

theorem latest_nil {σ α : Type} (f : σ → Option α) (d : α) : latest f d [] = d := rfl

theorem latest_snoc {σ α : Type} (f : σ → Option α) (d : α) (l : List σ) (x : σ) : latest f d (l ++ [x]) = (f x).getD (latest f d l) := by
  unfold latest
  rw [List.filterMap_append]
  cases h : f x with
  | none => simp [h]
  | some y => simp [h]

/-- The options hold the last value set, or the default. -/
theorem C130_options (il : U8) (settings : List RsSetting) :
    rsOpts il settings = ⟨il, latest RsSetting.fill? 0 settings, latest RsSetting.threads? 0 settings, latest RsSetting.buffer? 50 settings,
      latest RsSetting.detect? true settings, latest RsSetting.correct? true settings⟩ := by
  induction settings using List.reverseRecOn with
  | nil => rfl
  | append_singleton l x ih =>
    unfold rsOpts at ih ⊢
    rw [List.foldl_append, ih]
    simp only [latest_snoc]
    cases x <;> rfl

theorem C130_algorithm (il : U8) (settings : List AlgSetting) :
    algorithm il settings = ⟨latest AlgSetting.correct? true settings, latest AlgSetting.detect? true settings, il, 32, latest AlgSetting.remove? true settings,
      latest AlgSetting.fill? 0 settings⟩ := by
  induction settings using List.reverseRecOn with
  | nil => rfl
  | append_singleton l x ih =>
    unfold algorithm at ih ⊢
    rw [List.foldl_append, ih]
    simp only [latest_snoc]
    cases x <;> rfl

theorem C130_pipeline (len : Nat) (settings : List PipelineSetting) (auto : Nat) :
    (pipelineOpts len settings).config auto = ⟨latest PipelineSetting.plain? true settings,
      (latest PipelineSetting.rs? none settings).map fun o => (⟨o.interleave, o.virtualFill, o.detect, o.correct⟩, ⟨o.bufferSize, if o.numThreads = 0 then auto else o.numThreads⟩), len⟩ := by
  have : pipelineOpts len settings = ⟨latest PipelineSetting.plain? true settings, latest PipelineSetting.rs? none settings, len⟩ := by
    induction settings using List.reverseRecOn with
    | nil => rfl
    | append_singleton l x ih =>
      unfold pipelineOpts at ih ⊢
      rw [List.foldl_append, ih]
      simp only [latest_snoc]
      cases x <;> rfl
  rw [this]; rfl

/-- The job does not look at the detection switch. -/
theorem job_detect (k : Codec) (il : U8) (vf : Nat) (d d' c : Bool) (f : Frame) : RS.job k ⟨il, vf, d, c⟩ f = RS.job k ⟨il, vf, d', c⟩ f := by
  unfold RS.job
  have h := C41_ignored k (((RS.Config.new il).withCorrection c).withVirtualFill vf) d d' f.data
  have e : ∀ x, (RS.Opts.mk il vf x c).config = (((RS.Config.new il).withCorrection c).withVirtualFill vf).withDetection x := fun x => rfl
  rw [e, e, h]

/-- C130. What comes out of the pipeline depends, apart from its input, on the block length, whether derandomization was switched off, and of the Reed–Solomon options last given only on the
interleave and the last values of virtual fill and correction: two pipelines that agree in these hand out the same frames, whatever else was set, in whatever order, and however many
threads and whatever buffers there are. -/
theorem C130_output (b : Build) (k : Codec) (len : Nat) (calls calls' : List PipelineSetting) (il : U8) (settings settings' : List RsSetting) (auto auto' : Nat)
    (hplain : latest PipelineSetting.plain? true calls = latest PipelineSetting.plain? true calls')
    (hrs : latest PipelineSetting.rs? none calls = some (rsOpts il settings)) (hrs' : latest PipelineSetting.rs? none calls' = some (rsOpts il settings'))
    (hfill : latest RsSetting.fill? 0 settings = latest RsSetting.fill? 0 settings') (hcorrect : latest RsSetting.correct? true settings = latest RsSetting.correct? true settings')
    (r : Reader) (s s' : RsStage.State) (hs : Runs b k ((pipelineOpts len calls).config auto) r s) (hs' : Runs b k ((pipelineOpts len calls').config auto') r s')
    (he : s.cons = .ended) (he' : s'.cons = .ended) : s.got = s'.got := by
  rw [C130_pipeline, hrs, C130_options] at hs
  rw [C130_pipeline, hrs', C130_options] at hs'
  rw [← hplain, ← hfill, ← hcorrect] at hs'
  obtain ⟨o, p, frames, ended, e1, e2, e3⟩ := hs
  obtain ⟨o', p', frames', ended', e1', e2', e3'⟩ := hs'
  cases Option.some.inj e1
  cases Option.some.inj e1'
  have hsame : frames = frames' := (C52_deterministic b ⟨_, none, len⟩ r frames frames' ended ended' e2 e2').1
  subst hsame
  have h := C42_none _ _ _ s e3 he
  have h' := C42_none _ _ _ s' e3' he'
  rw [show (RS.job k ⟨il, latest RsSetting.fill? 0 settings, latest RsSetting.detect? true settings, latest RsSetting.correct? true settings⟩) =
    RS.job k ⟨il, latest RsSetting.fill? 0 settings, latest RsSetting.detect? true settings', latest RsSetting.correct? true settings⟩ from funext fun f => job_detect k _ _ _ _ _ f] at h
  exact (List.map_inj_right (fun x y e => by cases e; rfl)).1 (h.trans h'.symm)

/-- The algorithm by itself, with any settings: a block within reach of correction is repaired (or, without correction, accepted only if it is intact), with or without its check symbols. -/
theorem C130_perform (k : Codec) (code : List U8 → Prop) (hk : Bounded k code) (il : U8) (settings : List AlgSetting) (tx rx : List U8)
    (hI : 0 < il.toNat) (hvf : latest AlgSetting.fill? 0 settings ≤ 223 * il.toNat) (hlen : tx.length + latest AlgSetting.fill? 0 settings = 255 * il.toNat) (hrx : rx.length = tx.length)
    (hcode : ∀ i, i < il.toNat → code (codeword il.toNat (List.replicate (latest AlgSetting.fill? 0 settings) 0#8 ++ tx) i))
    (hd : ∀ i, i < il.toNat → dist (codeword il.toNat (List.replicate (latest AlgSetting.fill? 0 settings) 0#8 ++ rx) i)
        (codeword il.toNat (List.replicate (latest AlgSetting.fill? 0 settings) 0#8 ++ tx) i) ≤ 16) :
    RS.perform k (algorithm il settings) rx = .ret (.ok (
      if rx = tx then (.ok, if latest AlgSetting.remove? true settings then tx.take (tx.length - 32 * il.toNat) else tx)
      else if latest AlgSetting.correct? true settings then (.corrected, if latest AlgSetting.remove? true settings then tx.take (tx.length - 32 * il.toNat) else tx)
      else (.notCorrected, List.replicate (latest AlgSetting.fill? 0 settings) 0#8 ++ rx))) := by
  rw [C130_algorithm]
  generalize latest AlgSetting.fill? 0 settings = vf at *
  generalize latest AlgSetting.remove? true settings = rp
  generalize latest AlgSetting.detect? true settings = d
  cases hc : latest AlgSetting.correct? true settings with
  | true =>
    rw [C39_corrects k code hk ⟨true, d, il, 32, rp, vf⟩ tx rx rfl hI hvf hlen hrx hcode hd (.inl rfl)]
    by_cases h : rx = tx <;> simp [h]
  | false =>
    by_cases h : rx = tx
    · rw [C39_corrects k code hk ⟨false, d, il, 32, rp, vf⟩ tx rx rfl hI hvf hlen hrx hcode hd (.inr h)]
      simp [h]
    · rw [(C40_partial k code hk ⟨false, d, il, 32, rp, vf⟩ rx rfl hI (by rw [hrx]; exact hlen)).2 rfl (damaged_not_code hk hI hlen hrx hcode hd h)]
      simp [h]

/-- `ccsds framing` makes its pipeline by these calls (frame.rs:65-83). -/
theorem C130_command (a : Framing.Args) (auto : Nat) :
    (pipelineOpts (a.length + 32 * (a.reedSolomon.getD 0).toNat) ((if a.pn then [] else [.noDerandomization]) ++
      (a.reedSolomon.toList.map fun il => .rs (rsOpts il ([.bufferSize a.buffersize, .correction a.correct, .detection (a.detect || a.correct)] ++
        (if a.virtualfill = 0 then [] else [.virtualFill a.virtualfill]) ++ a.threads.toList.map .numThreads))))).config auto =
    Framing.config a (match a.threads with | none => auto | some n => if n = 0 then auto else n) := by
  obtain ⟨len, pn, keep, rs, det, cor, vf, th, buf, incl, excl, out⟩ := a
  rw [C130_pipeline]
  cases rs with
  | none => cases pn <;> rfl
  | some il =>
    simp only [Option.toList_some, List.map_cons, List.map_nil, latest_snoc]
    have hrs : ∀ l : List PipelineSetting, ∀ o, (PipelineSetting.rs? (.rs o)).getD (latest PipelineSetting.rs? none l) = some o := fun _ _ => rfl
    rw [hrs, C130_options]
    by_cases hv : vf = 0
    · subst hv
      cases th <;> cases pn <;> rfl
    · rw [if_neg hv]
      cases th <;> cases pn <;> rfl

/-! Concrete cases. -/

example : rsOpts 4 [.correction false, .virtualFill 7, .correction true, .numThreads 3, .virtualFill 5] = ⟨4, 5, 3, 50, true, true⟩ := by
  rw [C130_options]; rfl

/-- One wrong byte, check symbols kept. -/
example (k : Codec) (code : List U8 → Prop) (hk : Bounded k code) (h0 : code (List.replicate 255 0#8)) :
    RS.perform k (algorithm 1 [.correction false, .removeParity false, .correction true]) (1#8 :: List.replicate 254 0#8) = .ret (.ok (.corrected, List.replicate 255 0#8)) := by
  obtain ⟨h1, h2, h3, h4⟩ := one_error k code hk h0 (1#8 :: List.replicate 254 0#8) 0 rfl (by omega)
  have t := C130_perform k code hk 1 [.correction false, .removeParity false, .correction true] (List.replicate 255 0#8) (1#8 :: List.replicate 254 0#8)
    (by decide) (by decide) (by rw [List.length_replicate]; rfl) (by rw [h1, List.length_replicate])
    (by
      intro i hi
      have : i = 0 := by
        have : i < 1 := hi
        omega
      subst this
      change code (codeword 1 (List.replicate 255 0#8) 0)
      rw [codeword_one _ List.length_replicate]; exact h0)
    (by
      intro i hi
      have : i = 0 := by
        have : i < 1 := hi
        omega
      subst this
      change dist (codeword 1 (1#8 :: List.replicate 254 0#8) 0) (codeword 1 (List.replicate 255 0#8) 0) ≤ 16
      rw [codeword_one _ List.length_replicate, codeword_one _ h1]; exact h3)
  rw [t, if_neg h2]
  rfl

/-- Correction switched off and on again, many threads, small buffers: the same frames as with the defaults, on every input (here one on which a run to the end exists). -/
example (b : Build) (r : Reader) (hr : Smooth r (FramingEx.unit 1 0 ++ (FramingEx.unit 1 2).set 100 7 ++ FramingEx.unit 63 0)) :
    (∃ s, Runs b (bddCodec ccsdsCode) ((pipelineOpts 140 [.rs (rsOpts 1 [.virtualFill 115])]).config 8) r s ∧ s.cons = .ended) ∧
    ∀ s s', Runs b (bddCodec ccsdsCode) ((pipelineOpts 140 [.rs (rsOpts 1 [.virtualFill 115])]).config 8) r s →
      Runs b (bddCodec ccsdsCode) ((pipelineOpts 140 [.rs (rsOpts 9 []), .rs (rsOpts 1 [.correction false, .bufferSize 1, .numThreads 17, .detection false, .virtualFill 115, .correction true])]).config 4) r s' →
      s.cons = .ended → s'.cons = .ended → s.got = s'.got := by
  constructor
  · have hrec : Spec.Transmitter.Records r (FramingEx.fates.flatMap Spec.Fate.bytes) := by
      have : FramingEx.fates.flatMap Spec.Fate.bytes = [FramingEx.unit 1 0, (FramingEx.unit 1 2).set 100 7, FramingEx.unit 63 0] := rfl
      rw [this]
      exact Spec.Transmitter.records_plain r _ (by simpa using hr)
    exact (C127_frames b (bddCodec ccsdsCode) C113_distance.2 FramingEx.tx FramingEx.tx_valid exTxPackets FramingEx.slots FramingEx.sent (fun _ v _ => FramingEx.counters v) FramingEx.fates
      FramingEx.befalls r hrec ⟨1, 115, true, true⟩ rfl rfl ⟨50, 8⟩).1 (by decide)
  · intro s s' hs hs' he he'
    refine C130_output b (bddCodec ccsdsCode) 140 [.rs (rsOpts 1 [.virtualFill 115])] [.rs (rsOpts 9 []), .rs (rsOpts 1 [.correction false, .bufferSize 1, .numThreads 17, .detection false, .virtualFill 115, .correction true])] 1 [.virtualFill 115] [.correction false, .bufferSize 1, .numThreads 17, .detection false, .virtualFill 115, .correction true] 8 4
      (by rfl) (by rfl) (by rfl) (by rfl) (by rfl) r s s' hs hs' he he'

end Ccsds
