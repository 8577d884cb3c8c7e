import Verif.Proofs.Json
import Verif.Props.Report
import Verif.Props.FramingTotal
/-!
# C89: the JSON reports of `ccsds framing` and `ccsds info` can be read back
-/
namespace Ccsds.Report
open Spec.Json (parse member count)

theorem elements_of (l : List Json) : Spec.Json.Elements.list (Elems.of l) = l := by
  induction l with
  | nil => rfl
  | cons v l ih => simp [Elems.of, Spec.Json.Elements.list, ih]

theorem mapM_of {α β : Type} (f : Json → Option β) (g : α → Json) (h : α → β) (l : List α) (e : ∀ a ∈ l, f (g a) = some (h a)) : (l.map g).mapM f = some (l.map h) := by
  induction l with
  | nil => rfl
  | cons a l ih =>
    rw [List.map_cons, List.mapM_cons, e a (by simp), ih fun x hx => e x (by simp [hx])]
    rfl

theorem channel_read (i : Framing.Info) : Spec.Json.channel (framingInfoJson i) = some i := by
  have h : count (framingInfoJson i) "vcid" = some i.vcid.toNat := by rfl
  have ht : Spec.Json.tally (framingInfoJson i) = some i.tally := by rfl
  simp only [Spec.Json.channel, h, ht, Option.bind_eq_bind, Option.bind_some]
  rw [if_pos i.vcid.isLt, BitVec.ofNat_toNat, BitVec.setWidth_eq]

theorem framing_read (s : Framing.Summary) : (do
    let v := framingJsonValue s
    some (⟨← Spec.Json.tally v, ← (← Spec.Json.items (← member "vcids" v)).mapM Spec.Json.channel⟩ : Framing.Summary)) = some s := by
  have ht : Spec.Json.tally (framingJsonValue s) = some s.tally := by rfl
  have hv : member "vcids" (framingJsonValue s) = some (.arr (.of (s.vcids.map framingInfoJson))) := by rfl
  simp only [ht, hv, Option.bind_eq_bind, Option.bind_some, Spec.Json.items, elements_of]
  rw [mapM_of _ framingInfoJson id _ (fun i _ => channel_read i), List.map_id]
  rfl

/-- **C89.** The JSON report of `ccsds framing` is a JSON text from which all its counters can be read by name, whatever their sizes and however many channels there are. -/
theorem C89_framing (s : Framing.Summary) : Spec.Json.framing (framingJson s) = some s := by
  have := framing_read s
  simp only [Spec.Json.framing, framingJson, parse_pretty, Option.bind_eq_bind, Option.bind_some] at this ⊢
  exact this

theorem C89_injective (s s' : Framing.Summary) (h : framingJson s = framingJson s') : s = s' := by
  have h1 := C89_framing s
  rw [h, C89_framing s'] at h1
  exact (Option.some.inj h1).symm

theorem ascii_framing (s : Framing.Summary) : Ascii (framingJson s) := by
  refine ascii_pretty _ 0 ?_
  have hk : ∀ (t : Framing.Tally) (l : List (Text × Json)), AsciiF (.of l) → AsciiF (.of (tallyFields t ++ l)) := by
    intro t l hl
    simp only [tallyFields, List.cons_append, List.nil_append, Fields.of, AsciiF, AsciiJ]
    refine ⟨?_, trivial, ?_, trivial, ?_, trivial, ?_, trivial, ?_, trivial, ?_, trivial, ?_, trivial, ?_, trivial, hl⟩ <;> (unfold Ascii; decide)
  have hi : ∀ i, AsciiJ (framingInfoJson i) := by
    intro i
    have := hk i.tally [] (by simp [Fields.of, AsciiF])
    rw [List.append_nil] at this
    simp only [framingInfoJson, AsciiJ, Fields.of, AsciiF]
    exact ⟨by unfold Ascii; decide, trivial, this⟩
  simp only [framingJsonValue, AsciiJ]
  apply hk
  simp only [Fields.of, AsciiF, AsciiJ, and_true]
  refine ⟨by unfold Ascii; decide, asciiE_of _ ?_⟩
  intro v hv
  obtain ⟨i, _, rfl⟩ := List.mem_map.1 hv
  exact hi i

theorem ascii_bytes (t : Text) (h : Ascii t) : Spec.Json.ascii (t.map fun c => BitVec.ofNat 8 c.toNat) = some t := by
  unfold Spec.Json.ascii
  rw [if_pos]
  · congr 1
    rw [List.map_map]
    conv => rhs; rw [← List.map_id t]
    apply List.map_congr_left
    intro c hc
    have := h c hc
    simp only [Function.comp_apply, BitVec.toNat_ofNat, id]
    rw [Nat.mod_eq_of_lt (by omega), Char.ofNat_toNat]
  · intro x hx
    obtain ⟨c, hc, rfl⟩ := List.mem_map.1 hx
    have := h c hc
    simp only [BitVec.toNat_ofNat]
    omega

/-- The file holds ASCII characters only, so it is that text in UTF-8. -/
theorem C89_ascii (s : Framing.Summary) : Spec.Json.ascii (framingJsonBytes s) = some (framingJson s) := ascii_bytes _ (ascii_framing s)

/-- What is written to a summary file can be read back from its bytes. -/
theorem C89_file (s : Framing.Summary) : (Spec.Json.ascii (framingJsonBytes s)).bind Spec.Json.framing = some s := by
  rw [C89_ascii, Option.bind_some, C89_framing]

section
open Cmd Framing
variable {Path : Type} [DecidableEq Path] {b : Build} {k : Codec} {ud : Char → Bool} {parseCfg : List U8 → Option FramingConfig} {workers : Nat}
  {env : Cmd.Inputs Path} {a : FramingArgs Path} {fs fs' : FS Path} {s : List WEv}

/-- **C89.** When `ccsds framing --summary p` succeeds, the file `p` is a JSON text from which the summary of the run can be read (that of C57: of the frames that were decoded
and wanted), also if `p` is the output file as well. -/
theorem C89_command (h : FramingCmd b k ud parseCfg framingJsonBytes workers env a fs s .ok fs') {p : Path} (hp : a.summary = some p) :
    ∃ i e cfg r frames sm ws w, Ranges.parse ud a.incl = some i ∧ Ranges.parse ud a.excl = some e ∧ configOf parseCfg fs a = some cfg ∧
      env.reader fs (fs.create a.output) a.input = some r ∧ Source b k (framingArgs a cfg i e) workers r frames .ended ∧
      Finishes (framingArgs a cfg i e) frames sm ws ∧ FramingReport (wanted (framingArgs a cfg i e) frames) sm ∧
      fs' p = some w ∧ (Spec.Json.ascii w).bind Spec.Json.framing = some sm := by
  obtain ⟨i, e, cfg, r, sm, ws, h1, h2, h3, h4, h5, rfl⟩ := C78_success h
  have hsrc : ∃ frames, Source b k (framingArgs a cfg i e) workers r frames .ended ∧ Finishes (framingArgs a cfg i e) frames sm ws := by
    cases h5 with
    | @plain frames _ _ g1 g2 g3 => exact ⟨frames, .plain (ended := true) g1 g2, g3⟩
    | @rs il st _ _ g1 g2 g3 g4 =>
      have hna : st.aborted = none := by
        obtain ⟨o, p, frames, ended, _, _, hr⟩ := g2
        exact ended_not_aborted p _ frames st hr g3
      have := Source.rs g1 g2
      rw [if_neg (by simp [hna]), if_pos g3] at this
      exact ⟨_, this, g4⟩
  obtain ⟨frames, g1, g2⟩ := hsrc
  refine ⟨i, e, cfg, r, frames, sm, ws, framingJsonBytes sm, h1, h2, h3, h4, g1, g2, ((C57_summary _ _).1 _ _ g2).1, ?_, C89_file sm⟩
  rw [hp]
  simp [FS.fill, FS.put]

/-- A proper beginning of the report is no JSON text: a reader notices that it is not complete. -/
theorem C89_incomplete (sm : Framing.Summary) (t : Text) (h : t <+: framingJson sm) (hne : t ≠ framingJson sm) : parse t = none := parse_prefix _ t h hne

/-- **C89.** However `ccsds framing --summary p` ends (with `p` not the output file), the file `p` is as it was, or it holds a complete report, or it is not readable as JSON. -/
theorem C89_failed {st : Status} (h : FramingCmd b k ud parseCfg framingJsonBytes workers env a fs s st fs') {p : Path} (hp : a.summary = some p) (ho : a.output ≠ some p) :
    fs' p = fs p ∨ ∃ w, fs' p = some w ∧ ((∃ sm, (Spec.Json.ascii w).bind Spec.Json.framing = some sm ∧ w = framingJsonBytes sm) ∨ (Spec.Json.ascii w).bind parse = none) := by
  rcases (C78_files h).2.2 p ho hp with h | ⟨w, sm, h, hw⟩
  · exact .inl h
  · refine .inr ⟨w, h, ?_⟩
    by_cases e : w = framingJsonBytes sm
    · exact .inl ⟨sm, by rw [e, C89_file], e⟩
    · right
      obtain ⟨u, hu⟩ := hw
      have hw : w = ((framingJson sm).take w.length).map fun c => BitVec.ofNat 8 c.toNat := by
        rw [List.map_take]
        show w = (framingJsonBytes sm).take w.length
        rw [← hu, List.take_left]
      have hpre := List.take_prefix w.length (framingJson sm)
      have ha : Ascii ((framingJson sm).take w.length) := fun c hc => ascii_framing sm c (List.mem_of_mem_take hc)
      have hne : (framingJson sm).take w.length ≠ framingJson sm := by
        intro e'
        rw [e'] at hw
        exact e hw
      rw [show Spec.Json.ascii w = some _ from (congrArg Spec.Json.ascii hw).trans (ascii_bytes _ ha), Option.bind_some]
      exact C89_incomplete sm _ hpre hne
end

/-! ## `ccsds info` -/

theorem shown_read (showE : Epoch → Text) (showD : Int → Text) (s : Info.ISummary) :
    Spec.Json.shown (infoSummaryJson showE showD s) = some (shown showE s, showD s.duration) := by
  have h1 : count (infoSummaryJson showE showD s) "total_packets" = some s.total := by rfl
  have h2 : count (infoSummaryJson showE showD s) "missing_packets" = some s.missing := by rfl
  have h3 : member "first_packet_time" (infoSummaryJson showE showD s) = some (timeJson showE s.first) := by rfl
  have h4 : member "last_packet_time" (infoSummaryJson showE showD s) = some (timeJson showE s.last) := by rfl
  have h5 : member "duration" (infoSummaryJson showE showD s) = some (.str (showD s.duration)) := by rfl
  have ht : ∀ o, Spec.Json.textOrNull (timeJson showE o) = some (o.map showE) := by intro o; cases o <;> rfl
  simp only [Spec.Json.shown, h1, h2, h3, h4, h5, ht, Option.bind_eq_bind, Option.bind_some, Spec.Json.text]
  rfl

/-- **C89.** The JSON report of `ccsds info` is a JSON text from which the file name, exactly as it is, and the counts, times and durations of the file and of each
APID can be read, whatever characters the file name and the texts of times have. -/
theorem C89_info (showE : Epoch → Text) (showD : Int → Text) (filename : Text) (i : Info.Info) :
    Spec.Json.info (infoJson showE showD filename i) =
      some (filename, (shown showE i.summary, showD i.summary.duration), i.apids.map fun x => (x.1.toNat, shown showE x.2, showD x.2.duration)) := by
  have hf : member "filename" (infoJsonValue showE showD filename i) = some (.str filename) := by rfl
  have hs : member "summary" (infoJsonValue showE showD filename i) = some (infoSummaryJson showE showD i.summary) := by rfl
  have ha : member "apids" (infoJsonValue showE showD filename i) =
    some (.arr (.of (i.apids.map fun a => .arr (.of [.num a.1.toNat, infoSummaryJson showE showD a.2])))) := by rfl
  simp only [Spec.Json.info, infoJson, parse_pretty, hf, hs, ha, Option.bind_eq_bind, Option.bind_some, Spec.Json.text, shown_read, Spec.Json.items, elements_of]
  rw [mapM_of _ _ (fun x : U16 × Info.ISummary => (x.1.toNat, shown showE x.2, showD x.2.duration)) _ ?_]
  · rfl
  · intro x _
    simp only [Spec.Json.apid, Spec.Json.items, elements_of, Option.bind_eq_bind, Option.bind_some, Spec.Json.nat, shown_read]

/-- For `ccsds info` too: an output cut short is noticed. -/
theorem C89_info_incomplete (showE : Epoch → Text) (showD : Int → Text) (filename : Text) (i : Info.Info) (t : Text) (h : t <+: infoJson showE showD filename i)
    (hne : t ≠ infoJson showE showD filename i) : parse t = none := parse_prefix _ t h hne

/-! ## Examples -/

/-- A report with one channel, as it is written. -/
example : framingJson ⟨⟨1, 884, 0, 0, 0, 1, 0, 0⟩, [⟨16, ⟨1, 884, 0, 0, 0, 1, 0, 0⟩⟩]⟩ = (String.intercalate "\n" ["{", "  \"total_frames\": 1,", "  \"total_bytes\": 884,",
    "  \"missing_frames\": 0,", "  \"corrected\": 0,", "  \"uncorrectable\": 0,", "  \"ok\": 1,", "  \"error\": 0,", "  \"not_performed\": 0,", "  \"vcids\": [", "    {",
    "      \"vcid\": 16,", "      \"total_frames\": 1,", "      \"total_bytes\": 884,", "      \"missing_frames\": 0,", "      \"corrected\": 0,",
    "      \"uncorrectable\": 0,", "      \"ok\": 1,", "      \"error\": 0,", "      \"not_performed\": 0", "    }", "  ]", "}"]).toList := by decide +kernel

/-- It is read back, and its first 100 characters are not a report. -/
example : Spec.Json.framing (framingJson ⟨⟨1, 884, 0, 0, 0, 1, 0, 0⟩, [⟨16, ⟨1, 884, 0, 0, 0, 1, 0, 0⟩⟩]⟩) = some ⟨⟨1, 884, 0, 0, 0, 1, 0, 0⟩, [⟨16, ⟨1, 884, 0, 0, 0, 1, 0, 0⟩⟩]⟩ ∧
    parse ((framingJson ⟨⟨1, 884, 0, 0, 0, 1, 0, 0⟩, [⟨16, ⟨1, 884, 0, 0, 0, 1, 0, 0⟩⟩]⟩).take 100) = none :=
  ⟨C89_framing _, C89_incomplete _ _ (List.take_prefix _ _) (by decide +kernel)⟩

/-- A file name with quotes, a backslash, a line end and `&`. -/
example : ∃ x, Spec.Json.info (infoJson exShow exShowD "a\"b\\c\n&".toList ⟨⟨2, 0, some ⟨.utc, 5⟩, none, 4⟩, [(7, ⟨2, 0, none, none, 0⟩)]⟩) = some ("a\"b\\c\n&".toList, x) ∧
    x.2 = [(7, ⟨2, 0, none, none⟩, "2 s".toList)] := ⟨_, C89_info _ _ _ _, rfl⟩

open FramingCmdEx Cmd in
/-- The hypotheses of `C89_command` and `C89_failed` are met: a run with a summary file. -/
example (k : Codec) : ∃ fs' w sm, FramingCmd ⟨true⟩ k (fun _ => false) (fun _ => none) framingJsonBytes 1 env { args 2 with summary := some 4 } disk [] .ok fs' ∧
    fs' 4 = some w ∧ (Spec.Json.ascii w).bind Spec.Json.framing = some sm := by
  obtain ⟨w, _, hrun⟩ := run ⟨true⟩ k framingJsonBytes 2 [] (by intro e he; cases he)
  obtain ⟨i, e, cfg, r, sm, ws, h1, h2, h3, h4, h5, _⟩ := C78_success hrun
  obtain ⟨_, r', hr', hp⟩ := C78_possible (b := ⟨true⟩) (k := k) (parseCfg := fun _ => none) (render := framingJsonBytes) (workers := 1) (s := []) (env := env) (fs := disk)
    (a := { args 2 with summary := some 4 }) h1 h2 (show (some exPipeReader) ≠ none by simp) h3 (by cases h3; decide)
  have e : r = r' := by rw [show env.reader disk _ _ = some r from h4] at hr'; exact Option.some.inj hr'
  subst e
  have hc := hp (by intro e he; cases he) (.inr (by decide)) sm ws h5
  obtain ⟨_, _, _, _, _, sm', _, w', _, _, _, _, _, _, _, g1, g2⟩ := C89_command hc (p := 4) rfl
  exact ⟨_, w', sm', hc, g1, g2⟩

end Ccsds.Report
