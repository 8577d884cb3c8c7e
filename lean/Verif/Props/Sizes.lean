import Verif.Props.RsStage
import Verif.Props.Pipeline
import Verif.Proofs.Sizes
/-!
# C61: sizes of blocks and frames
-/
namespace Ccsds
open Spec

/-- Every block of `synchronize`, on whatever reader (short, failing, interrupted), has exactly the configured length. -/
theorem C61_blocks (r : Reader) (asm : List U8) (len : Nat) (items : List (Except Error Block)) (e : Option Sync.Iter)
    (h : Collects Sync.next (Sync.iter r asm len) items e) : ∀ b, .ok b ∈ items → b.data.length = len := by
  have main : ∀ (s : Sync.Iter), Collects Sync.next s items e → ∀ b, .ok b ∈ items → b.data.length = s.scanner.blockSize := by
    clear h
    intro s hc
    induction hc with
    | done => simp
    | panicked => simp
    | @step s item s' items e hn hc ih =>
      intro b hb
      obtain ⟨h1, h2⟩ := Sync.next_blockSize _ _ _ hn
      rcases List.mem_cons.1 hb with hb | hb
      · exact h2 b (by rw [hb])
      · rw [ih b hb]; exact h1
  exact main _ h

/-- Every frame of the pipeline without Reed-Solomon has exactly the configured length, on whatever reader. -/
theorem C61_frames (b : Build) (c : Pipeline.Config) (r : Reader) (frames : List Frame) (ended : Bool) (h : Pipeline.Outputs b c r frames ended) :
    ∀ f ∈ frames, f.data.length = c.blockLength := by
  obtain ⟨e, hy, _⟩ := h
  exact fun f hf => Pipeline.yields_length hy f hf

/-- With Reed-Solomon, under every schedule and whatever the codec answers: the check symbols are removed from intact and corrected frames,
all other frames keep their length. -/
theorem C61_rs (b : Build) (k : Codec) (c : Pipeline.Config) (o : RS.Opts) (p : RsStage.Params) (hc : c.rs = some (o, p)) (r : Reader) (st : RsStage.State)
    (h : Pipeline.Runs b k c r st) : ∀ f ∈ st.got,
      f.data.length = if f.integrity = some .ok ∨ f.integrity = some .corrected then c.blockLength - 32 * o.interleave.toNat else c.blockLength := by
  obtain ⟨o', p', frames, ended, ho, hout, hr⟩ := h
  rw [hc] at ho
  simp only [Option.some.injEq, Prod.mk.injEq] at ho
  obtain ⟨rfl, rfl⟩ := ho
  intro f hf
  have hpre := C42_prefix p _ frames st hr
  have hm : Outcome.ret f ∈ frames.map (RS.job k o) := hpre.subset (List.mem_map_of_mem hf)
  obtain ⟨g, hg, hj⟩ := List.mem_map.1 hm
  have hgl := C61_frames b c r frames ended hout g hg
  have hgn : g.integrity = none := by
    obtain ⟨e, hy, _⟩ := hout
    exact Pipeline.yields_integrity hy g hg
  rw [RS.job_exact k o g f hgn hj, hgl]
  rw [Nat.mul_comm]

/-! The hypothesis of `C61_frames` is met by the run of `Props/Pipeline.lean`; those of `C61_rs` by the runs of `Props/EndToEnd.lean`. -/

example (b : Build) : ∃ frames, Pipeline.Outputs b (Pipeline.Config.new 8) exPipeReader frames true ∧ frames ≠ [] ∧ ∀ f ∈ frames, f.data.length = 8 := by
  obtain ⟨frames, h, hd⟩ := exPipe_outputs b
  refine ⟨frames, h, ?_, C61_frames b _ _ _ _ h⟩
  rintro rfl
  exact absurd hd (by decide)

end Ccsds
