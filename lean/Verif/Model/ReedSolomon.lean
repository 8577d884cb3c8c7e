import Verif.Model.Frame
/-!
# `ccsds-lib/src/framing/reed_solomon.rs` and the per-frame job of `ccsds-lib/src/framing/pipeline/reed_solomon.rs`

The codec itself is the external crate `rs2`, whose source is not in `/repo`; it is a parameter (`Codec`).
-/
namespace Ccsds

/-- `for i in 0..n { s = f(i, s) }` where the body may panic. -/
def forRange {σ : Type} : (n : Nat) → (f : Nat → σ → Outcome σ) → σ → Outcome σ
  | 0, _, s => .ret s
  | n + 1, f, s => forRange n f s >>= f n

/-- `rs2::RSState`. -/
inductive RSState where
  | ok
  | corrected (num : Nat)
  | uncorrectable
  | notPerformed
  deriving DecidableEq, Repr

/-- The two functions of crate `rs2` that reed_solomon.rs:3 imports: `has_errors(msg)` and
`correct_message(msg) -> RSResult { state, message }`. -/
structure Codec where
  hasErrors : List U8 → Bool
  correctMessage : List U8 → RSState × Option (List U8)

namespace RS

/-- `rs2::N`. -/
def N : Nat := 255
/-- `rs2::PARITY_LEN`. -/
def PARITY_LEN : Nat := 32

/-- reed_solomon.rs:75 `zult[j % interleave][j / interleave] = data[j]` with both index checks. -/
def deinterleaveStep (data : List U8) (I : Nat) (j : Nat) (z : List (List U8)) : Outcome (List (List U8)) :=
  match z[j % I]? with
  | none => .panic
  | some row =>
    match data[j]? with
    | none => .panic
    | some x => if j / I < row.length then .ret (z.set (j % I) (row.set (j / I) x)) else .panic

/-- reed_solomon.rs:65-78 `deinterleave`. `data.len() % 0` panics, like the failed assertion. -/
def deinterleave (data : List U8) (interleave : U8) : Outcome (List (List U8)) :=
  let I := interleave.toNat
  if I = 0 then .panic
  else if data.length % I ≠ 0 then .panic
  else forRange data.length (deinterleaveStep data I) (List.replicate I (List.replicate 255 0#8))

/-- reed_solomon.rs:211-213, the loop writing one corrected message back with stride `interleave`. -/
def writeMessage (I idx : Nat) (message : List U8) (corrected : List U8) : Outcome (List U8) :=
  forRange message.length
    (fun j c =>
      match message[j]? with
      | none => .panic
      | some x => if idx + j * I < c.length then .ret (c.set (idx + j * I) x) else .panic) corrected

/-- reed_solomon.rs:84-92 `DefaultReedSolomon`. -/
structure Config where
  correct : Bool
  detect : Bool
  interleave : U8
  parityLen : Nat
  removeParity : Bool
  virtualFill : Nat
  deriving DecidableEq, Repr

/-- reed_solomon.rs:102-111 `DefaultReedSolomon::new`. -/
def Config.new (interleave : U8) : Config := ⟨true, true, interleave, PARITY_LEN, true, 0⟩

/-- reed_solomon.rs:119-122 the `with_*` setters. -/
def Config.withVirtualFill (c : Config) (n : Nat) : Config := { c with virtualFill := n }
/-- reed_solomon.rs:129-132 -/
def Config.withCorrection (c : Config) (e : Bool) : Config := { c with correct := e }
/-- reed_solomon.rs:138-141 -/
def Config.withDetection (c : Config) (e : Bool) : Config := { c with detect := e }
/-- reed_solomon.rs:144-147 -/
def Config.withRemoveParity (c : Config) (e : Bool) : Config := { c with removeParity := e }

/-- reed_solomon.rs:149-151 `can_correct`. -/
def canCorrect (blockLen : Nat) (interleave : U8) (virtualFill : Nat) : Bool :=
  blockLen + virtualFill == N * interleave.toNat

/-- reed_solomon.rs:153-156 `remove_parity`; the subtraction panics (or the wrapped index is out of range) if it underflows. -/
def removeParity (c : Config) (dat : List U8) : Outcome (List U8) :=
  let parityLen := c.interleave.toNat * c.parityLen
  if dat.length < parityLen then .panic else .ret (dat.take (dat.length - parityLen))

/-- How the message loop ended: an early `return Ok((integrity, data))`, or all messages written. -/
inductive LoopEnd where
  | early (i : Integrity) (data : List U8)
  | done (corrected : List U8) (num : Nat)
  deriving DecidableEq, Repr

/-- reed_solomon.rs:194-214 the loop over the de-interleaved messages, from message `idx` on.
`numCorrected` is an `i32` in the code, here a natural number: at most 255 messages of at most 255 corrections. -/
def messageLoop (k : Codec) (c : Config) (caduDat : List U8) :
    List (List U8) → Nat → List U8 → Nat → Outcome LoopEnd
  | [], _, corrected, num => .ret (.done corrected num)
  | msg :: rest, idx, corrected, num =>
    if !c.correct && k.hasErrors msg then .ret (.early .notCorrected caduDat)
    else
      let zult := k.correctMessage msg
      match zult.1 with
      | .uncorrectable => do
        let d ← removeParity c caduDat
        .ret (.early .uncorrectable d)
      | st =>
        let num := match st with | .corrected n => num + n | _ => num
        match zult.2 with
        | none => .panic
        | some message => do
          let corrected ← writeMessage c.interleave.toNat idx message corrected
          messageLoop k c caduDat rest (idx + 1) corrected num

/-- reed_solomon.rs:172-229 `perform`. `detect` is not read, as in the code. -/
def perform (k : Codec) (c : Config) (caduDat : List U8) : Outcome (Except Error (Integrity × List U8)) :=
  if !canCorrect caduDat.length c.interleave c.virtualFill then .ret (.error .integrityAlgorithm)
  else do
    let corrected := List.replicate (caduDat.length + c.virtualFill) 0#8
    let caduDat := if c.virtualFill = 0 then caduDat else List.replicate c.virtualFill 0#8 ++ caduDat
    let messages ← deinterleave caduDat c.interleave
    let e ← messageLoop k c caduDat messages 0 corrected 0
    match e with
    | .early i d => .ret (.ok (i, d))
    | .done corrected num => do
      let zult ← if c.removeParity then removeParity c corrected else .ret corrected
      if zult.length < c.virtualFill then .panic
      else
        let zult := zult.drop c.virtualFill
        if num = 0 then .ret (.ok (.ok, zult)) else .ret (.ok (.corrected, zult))

/-- pipeline/reed_solomon.rs:10-17 `RsOpts`; thread and buffer settings are parameters of the thread model. -/
structure Opts where
  interleave : U8
  virtualFill : Nat
  detect : Bool
  correct : Bool
  deriving DecidableEq, Repr

/-- pipeline/reed_solomon.rs:79-84 the algorithm object built from the options. -/
def Opts.config (o : Opts) : Config :=
  (((Config.new o.interleave).withDetection o.detect).withCorrection o.correct).withVirtualFill o.virtualFill

/-- pipeline/reed_solomon.rs:97-111 the job run in the thread pool for one frame. A returned `Err` becomes a panic. -/
def job (k : Codec) (o : Opts) (f : Frame) : Outcome Frame :=
  if f.header.vcid ≠ VCDUHeader.FILL then do
    let r ← perform k o.config f.data
    match r with
    | .error _ => .panic
    | .ok (integrity, data) =>
      .ret { f with integrity := some integrity, data := if integrity.isOk then data else f.data }
  else .ret f

end RS
end Ccsds
