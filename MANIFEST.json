{
 "claims": [
  {
   "property": "C01",
   "status": "proved",
   "theorems": [
    "Ccsds.C01_fields",
    "Ccsds.C01_short",
    "Ccsds.C01_reserialize",
    "Ccsds.C01_decode_serialized",
    "Ccsds.C01_prefix"
   ],
   "note": "bit-level layout, both round trips, prefix dependence"
  },
  {
   "property": "C02",
   "status": "proved",
   "theorems": [
    "Ccsds.C02_decode",
    "Ccsds.C02_success_iff",
    "Ccsds.C02_trailing"
   ],
   "note": "exact behaviour for every buffer"
  },
  {
   "property": "C03",
   "status": "partial",
   "theorems": [
    "Ccsds.C03_partial",
    "Ccsds.C03_panics_iff",
    "Ccsds.C03_violated"
   ],
   "note": "the code violates the full statement (C03_full) for length fields >= 65530: proved negation, exact panic condition and the statement for all other lengths"
  },
  {
   "property": "C04",
   "status": "proved",
   "theorems": [
    "Ccsds.C04_cut"
   ],
   "note": "every byte stream, every delivery schedule; ends normally or by the C03 panic, both characterised"
  },
  {
   "property": "C05",
   "status": "proved",
   "theorems": [
    "Ccsds.C05_roundtrip"
   ],
   "note": "packets of at most 65536 bytes (larger ones panic, C03)"
  },
  {
   "property": "C06",
   "status": "proved",
   "theorems": [
    "Ccsds.C06_chunking"
   ],
   "note": "any two schedules of short reads and interrupts"
  },
  {
   "property": "C07",
   "status": "proved",
   "theorems": [
    "Ccsds.C07_error",
    "Ccsds.C07_eof",
    "Ccsds.C07_packet",
    "Ccsds.C07_panic",
    "Ccsds.C07_cases_exhaustive",
    "Ccsds.C07_never_ends",
    "Ccsds.C07_fails_forever",
    "Ccsds.C07_ends"
   ],
   "note": "complete case analysis of next over reader scripts, and the non-termination hazard"
  },
  {
   "property": "C08",
   "status": "proved",
   "theorems": [
    "Ccsds.C08_gap",
    "Ccsds.C08_zero_iff",
    "Ccsds.C08_any"
   ],
   "note": "both overflow profiles"
  },
  {
   "property": "C09",
   "status": "proved",
   "theorems": [
    "Ccsds.C09_totals"
   ],
   "note": "invariant over every packet history"
  },
  {
   "property": "C10",
   "status": "proved",
   "theorems": [
    "Ccsds.C10_missing",
    "Ccsds.C10_lost",
    "Ccsds.C10_summary_counts_losses"
   ],
   "note": "gap sum per APID; equals the number of lost packets for every loss pattern"
  },
  {
   "property": "C100",
   "status": "proved",
   "theorems": [
    "Ccsds.C100_decode_packets",
    "Ccsds.C100_synchronize",
    "Ccsds.C100_pipeline",
    "Ccsds.C100_pipeline_rs",
    "Ccsds.C100_info",
    "Ccsds.C100_filter",
    "Ccsds.C100_diff",
    "Ccsds.C100_merge",
    "Ccsds.C100_framing",
    "Ccsds.C100_read_exact",
    "Ccsds.C100_buffered_read",
    "Ccsds.C100_buffered_read_exact",
    "Ccsds.C100_buffered_new",
    "Ccsds.C100_timed",
    "Ccsds.C100_pointers"
   ],
   "note": "Two scripts are the same stream when cutting them into single bytes gives the same list. BufReader is modelled after the standard library; seeks of a BufReader (merge) discard its buffer and are not part of this claim."
  },
  {
   "property": "C101",
   "status": "proved",
   "theorems": [
    "Ccsds.C101_filter",
    "Ccsds.C101_filter_any",
    "Ccsds.C101_merge",
    "Ccsds.C101_merge_any",
    "Ccsds.C101_framing",
    "Ccsds.C101_framing_any",
    "Ccsds.C101_framing_unique",
    "Ccsds.C101_readable",
    "Ccsds.Cmd.filterAt_end",
    "Ccsds.Cmd.mergeAt_end",
    "Ccsds.Cmd.framingAt_end"
   ],
   "note": "A killed process, not a crashed machine: bytes accepted by write stay. Framing with Reed-Solomon in place (output = input) is excluded, as in C78."
  },
  {
   "property": "C102",
   "status": "partial",
   "theorems": [
    "Ccsds.C102_exact",
    "Ccsds.C102_exact_ends",
    "Ccsds.C102_timed_partial",
    "Ccsds.C102_merge_partial",
    "Ccsds.C102_delivers",
    "Ccsds.C102_decode_packets",
    "Ccsds.C102_info",
    "Ccsds.C102_untimed",
    "Ccsds.C102_final",
    "Ccsds.C102_violated"
   ],
   "note": "The full statement (C102_full) is violated by the code for timed filter and merge; C102_exact is the exact behaviour for every input."
  },
  {
   "property": "C103",
   "status": "partial",
   "theorems": [
    "Ccsds.C103_unchecked",
    "Ccsds.C103_partial",
    "Ccsds.C103_panics",
    "Ccsds.C103_violated"
   ],
   "note": "The full statement (C103_full) is violated in builds with overflow checks, after 2^31 markers at one alignment."
  },
  {
   "property": "C104",
   "status": "proved",
   "theorems": [
    "Ccsds.C104_synchronize",
    "Ccsds.C104_all",
    "Ccsds.C104_pipeline"
   ],
   "note": "Pipeline without Reed-Solomon only: with it, frames are decoded by other threads, and the stage of jobs in flight is bounded (C69)."
  },
  {
   "property": "C105",
   "status": "proved",
   "theorems": [
    "Ccsds.C105_synchronize"
   ],
   "note": ""
  },
  {
   "property": "C106",
   "status": "proved",
   "theorems": [
    "Ccsds.C106_synchronize",
    "Ccsds.C106_pipeline",
    "Ccsds.C106_framing"
   ],
   "note": ""
  },
  {
   "property": "C107",
   "status": "proved",
   "theorems": [
    "Ccsds.C107_merge",
    "Ccsds.C107_command"
   ],
   "note": ""
  },
  {
   "property": "C108",
   "status": "proved",
   "theorems": [
    "Ccsds.C108_exchange",
    "Ccsds.C108_order"
   ],
   "note": ""
  },
  {
   "property": "C109",
   "status": "proved",
   "theorems": [
    "Ccsds.C109_survivors",
    "Ccsds.C109_blocks",
    "Ccsds.C109_pipeline"
   ],
   "note": ""
  },
  {
   "property": "C11",
   "status": "proved",
   "theorems": [
    "Ccsds.C11_partition",
    "Ccsds.C11_fused"
   ],
   "note": ""
  },
  {
   "property": "C110",
   "status": "proved",
   "theorems": [
    "Ccsds.C110_decode",
    "Ccsds.C110_filter",
    "Ccsds.C110_info",
    "Ccsds.C110_groups",
    "Ccsds.C110_timed",
    "Ccsds.C110_merge"
   ],
   "note": ""
  },
  {
   "property": "C111",
   "status": "proved",
   "theorems": [
    "Ccsds.C111_order",
    "Ccsds.C111_ties",
    "Ccsds.C111_carry"
   ],
   "note": "Instants as nanoseconds; the f64 product of a 24-bit fine field and an f32 is exact, so truncation is the only rounding."
  },
  {
   "property": "C112",
   "status": "proved",
   "theorems": [
    "Ccsds.C112_slip",
    "Ccsds.C112_pipeline",
    "Ccsds.C112_costs_two"
   ],
   "note": "Blocks for every marker and reader; frames up to the Reed-Solomon stage. The exceptions named in the statement (a frame made of stray bits whose header cannot be read ends the output, C83; the counter panic, C34) are in the statement of C112_pipeline."
  },
  {
   "property": "C113",
   "status": "proved",
   "theorems": [
    "Ccsds.C113_distance",
    "Ccsds.C113_linear",
    "Ccsds.C113_constant",
    "Ccsds.C113_fixture",
    "Ccsds.C113_not_conventional",
    "Ccsds.C113_recovers",
    "Ccsds.C113_constant_block",
    "Ccsds.C113_tests",
    "Ccsds.C113_doc_example"
   ],
   "note": "the decoder is any that meets the contract `Bounded` for the code; that rs2 does is not proved (its tests words are shown to be code words)"
  },
  {
   "property": "C114",
   "status": "proved",
   "theorems": [
    "Ccsds.C114_received",
    "Ccsds.C114_all",
    "Ccsds.C114_encoder",
    "Ccsds.rsParity_fixture",
    "Ccsds.Spec.Transmitter.decode_header",
    "Ccsds.Spec.Transmitter.pointer_first"
   ],
   "note": "transmitter as an executable specification; the condition that counters do not roll over is necessary because of C34"
  },
  {
   "property": "C115",
   "status": "partial",
   "theorems": [
    "Ccsds.C115_violated",
    "Ccsds.C115_exact",
    "Ccsds.C115_straddle",
    "Ccsds.C115_partial"
   ],
   "note": "C115_full is false of the code in both build profiles (C115_violated). C115_exact is the exact behaviour on every link in both profiles; C115_partial: without overflow checks exactly the packets that straddle a rollover are lost (C115_straddle)"
  },
  {
   "property": "C116",
   "status": "partial",
   "theorems": [
    "Ccsds.C116_violated",
    "Ccsds.C34_zero",
    "Ccsds.C116_partial"
   ],
   "note": "C116_full is false of the code in both build profiles: a packet nobody sent is delivered when frame 16777215 is lost (C116_violated). C116_partial: holds unless the received counters contain 16777214,0 or 16777215,1; C34_zero: no other pairs report zero missing wrongly"
  },
  {
   "property": "C117",
   "status": "proved",
   "theorems": [
    "Ccsds.C117_received",
    "Ccsds.C117_far",
    "Ccsds.Spec.Transmitter.C117_spoil"
   ],
   "note": "exact for every combination of losses; the two unnoticed losses of C116 are excluded by hypothesis"
  },
  {
   "property": "C118",
   "status": "proved",
   "theorems": [
    "Ccsds.Spec.Transmitter.C118_cut",
    "Ccsds.Spec.Transmitter.gives_some"
   ],
   "note": "every run that reaches its end; gives_some: such runs exist; the unnoticed losses of C116 are excluded by hypothesis"
  },
  {
   "property": "C119",
   "status": "proved",
   "theorems": [
    "Ccsds.Spec.Transmitter.C119_better",
    "Ccsds.Spec.Transmitter.gives_some"
   ],
   "note": "the unnoticed losses of C116 are excluded by hypothesis in both receptions"
  },
  {
   "property": "C12",
   "status": "partial",
   "theorems": [
    "Ccsds.C12_partial",
    "Ccsds.C12_violated",
    "Ccsds.C12_exact",
    "Ccsds.C12_recovered_iff",
    "Ccsds.C12_fuse",
    "Ccsds.C12_fuse_id"
   ],
   "note": "the code violates the full statement (C12_full); proved when every segmented group is followed by another APID; C12_exact characterizes the groups for every packet sequence, C12_recovered_iff says exactly when a sender's groups are recovered"
  },
  {
   "property": "C120",
   "status": "proved",
   "theorems": [
    "Ccsds.Spec.Transmitter.C120_stations",
    "Ccsds.C120_union"
   ],
   "note": "unsegmented packets only: segmented groups can be fused by losses (C12, C95); the unnoticed losses of C116 are excluded by hypothesis"
  },
  {
   "property": "C121",
   "status": "proved",
   "theorems": [
    "Ccsds.Spec.Transmitter.C121_info"
   ],
   "note": "Uses C117 (channel other than 63), C05, C56, C10. Packets of at most 65536 bytes (C03). Numbering of the packets by the sender and the losses are stated with Spec/Transmitter, Spec/Link and Spec/Sequence only."
  },
  {
   "property": "C122",
   "status": "partial",
   "theorems": [
    "Ccsds.C122_violated",
    "Ccsds.C122_exact",
    "Ccsds.C122_iff",
    "Ccsds.C122_partial",
    "Ccsds.C122_one_channel",
    "Ccsds.C122_no_panic"
   ],
   "note": "violated by the code: for TM frames the master and virtual channel counts are joined into one counter, so complete streams report missing frames; C122_iff says exactly when the report is right"
  },
  {
   "property": "C123",
   "status": "proved",
   "theorems": [
    "Ccsds.C123_read",
    "Ccsds.C123_filter",
    "Ccsds.C123_timed",
    "Ccsds.C123_timed_again",
    "Ccsds.C123_merge",
    "Ccsds.C123_concat",
    "Ccsds.C12_fuse",
    "Ccsds.C12_fuse_id"
   ],
   "note": "times at or after 2100 with --after alone are excluded from the timed statements (C53)"
  },
  {
   "property": "C124",
   "status": "proved",
   "theorems": [
    "Ccsds.C124_info",
    "Ccsds.C124_diff"
   ],
   "note": "info and diff on a file written by filter"
  },
  {
   "property": "C125",
   "status": "proved",
   "theorems": [
    "Ccsds.C125_split"
   ],
   "note": "the two conditions of the statement are hypotheses (determined merge, KeepsApart); C93_violated shows the second is needed"
  },
  {
   "property": "C126",
   "status": "proved",
   "theorems": [
    "Ccsds.C126_merge",
    "Ccsds.C126_success",
    "Ccsds.C126_sound",
    "Ccsds.C126_pipes",
    "Ccsds.C126_command"
   ],
   "note": ""
  },
  {
   "property": "C127",
   "status": "proved",
   "theorems": [
    "Ccsds.C127_frames",
    "Ccsds.C127_command"
   ],
   "note": "Complete for recordings in which marker and frame header of each received unit are intact; the missing count is also given exactly when a counter rolls over (C128)."
  },
  {
   "property": "C128",
   "status": "partial",
   "theorems": [
    "Ccsds.C128_violated",
    "Ccsds.C128_exact",
    "Ccsds.C128_partial"
   ],
   "note": "The code violates the full statement (C128_full); C128_exact says what is reported instead, C128_partial is the part that holds in both builds (no rollover)."
  },
  {
   "property": "C129",
   "status": "proved",
   "theorems": [
    "Ccsds.C129_frames",
    "Ccsds.C129_command"
   ],
   "note": "The missing count is also given exactly when a counter rolls over."
  },
  {
   "property": "C13",
   "status": "proved",
   "theorems": [
    "Ccsds.C13_complete",
    "Ccsds.C13_have_missing",
    "Ccsds.consecutive_iff"
   ],
   "note": ""
  },
  {
   "property": "C130",
   "status": "proved",
   "theorems": [
    "Ccsds.C130_options",
    "Ccsds.C130_algorithm",
    "Ccsds.C130_pipeline",
    "Ccsds.C130_output",
    "Ccsds.C130_perform",
    "Ccsds.C130_command"
   ],
   "note": "The number of threads rayon chooses for 0 is a parameter."
  },
  {
   "property": "C131",
   "status": "proved",
   "theorems": [
    "Ccsds.C131_split",
    "Ccsds.C131_records",
    "Ccsds.C131_finish",
    "Ccsds.C131_both"
   ],
   "note": "three runs of framing on one input"
  },
  {
   "property": "C132",
   "status": "proved",
   "theorems": [
    "Ccsds.C132_reread",
    "Ccsds.C132_command"
   ],
   "note": "as C117, for frame sizes and counters a transmitter can have; frames around the counter roll-over as stated there"
  },
  {
   "property": "C133",
   "status": "proved",
   "theorems": [
    "Ccsds.C133_same",
    "Ccsds.C133_any",
    "Ccsds.C133_total",
    "Ccsds.C133_linear"
   ],
   "note": "comparisons counted in Model/Work; copying blocks is not counted"
  },
  {
   "property": "C134",
   "status": "proved",
   "theorems": [
    "Ccsds.C134_blocks",
    "Ccsds.C134_frames",
    "Ccsds.C134_rs",
    "Ccsds.C134_framing",
    "Ccsds.C134_packets",
    "Ccsds.C134_packets_all",
    "Ccsds.C134_recording",
    "Ccsds.C134_filter",
    "Ccsds.C134_merge"
   ],
   "note": "Readers that do not fail (Smooth / Delivers); the last block may be zero-filled, hence the + L."
  },
  {
   "property": "C135",
   "status": "partial",
   "theorems": [
    "Ccsds.C135_violated",
    "Ccsds.C135_short",
    "Ccsds.C135_fill",
    "Ccsds.C135_zeros",
    "Ccsds.C135_ones",
    "Ccsds.C135_info_zeros",
    "Ccsds.C135_info_ones",
    "Ccsds.C135_filter_ones",
    "Ccsds.C135_merge_ones",
    "Ccsds.C135_diff_ones"
   ],
   "note": "The code violates the full statement (C135_full, refuted by C135_violated). The exact effect of every kind of fill is proved: under 6 bytes none, 0xFF a panic, any other byte f one more packet per 257·f + 7 bytes."
  },
  {
   "property": "C136",
   "status": "proved",
   "theorems": [
    "Ccsds.C136_decode",
    "Ccsds.C136_info",
    "Ccsds.C136_filter"
   ],
   "note": "Damage of headers and data that spares the length fields; the stream is otherwise arbitrary."
  },
  {
   "property": "C137",
   "status": "proved",
   "theorems": [
    "Ccsds.C137_counts",
    "Ccsds.C137_info",
    "Ccsds.C137_diff",
    "Ccsds.C137_sorted"
   ],
   "note": "\"All groups of which are to be merged\" (WhollyMerged): each has a decodable time in range and a selected APID, and no two of the file share APID, sequence id and time."
  },
  {
   "property": "C138",
   "status": "proved",
   "theorems": [
    "Ccsds.C138_two",
    "Ccsds.C138_larger",
    "Ccsds.C138_tie",
    "Ccsds.WhichCopyEx.C138_damaged",
    "Ccsds.C138_master"
   ],
   "note": "For two inputs, and (C138_master) for any number when one has more groups than all the others have distinct ones; that HashSet::union keeps the elements of the larger set is how std implements it, as Model/Merge records."
  },
  {
   "property": "C139",
   "status": "partial",
   "theorems": [
    "Ccsds.C139_packets",
    "Ccsds.C139_reader",
    "Ccsds.C139_synchronize_reader",
    "Ccsds.C139_synchronize",
    "Ccsds.C139_synchronize_partial",
    "Ccsds.ResumeEx.C139_violated"
   ],
   "note": "Proved in full for packets, on any reader. For blocks the full statement (C139_full) is false of the code when the stream is not byte-aligned (C139_violated: the marker that begins in the byte the last block ends in is lost); proved exactly (C139_synchronize) and in full where the bytes are aligned (C139_synchronize_partial)."
  },
  {
   "property": "C14",
   "status": "proved",
   "theorems": [
    "Ccsds.C14_decode",
    "Ccsds.C14_roundtrip",
    "Ccsds.C14_prefix"
   ],
   "note": "hifitime's Duration::compose taken as exact"
  },
  {
   "property": "C140",
   "status": "partial",
   "theorems": [
    "Ccsds.C140_passes",
    "Ccsds.C140_repeated",
    "Ccsds.C140_complete",
    "Ccsds.C140_noticed",
    "Ccsds.C140_repeated_partial",
    "Ccsds.AgainEx.C140_violated"
   ],
   "note": "Passes, the exact packets when one frame arrives twice, and how the repetition is noticed are proved in full; that a repeated frame costs no packet (C140_full) is false of the code when no packet starts in that frame (C140_violated), and proved for every frame in which one starts (C140_repeated_partial)."
  },
  {
   "property": "C141",
   "status": "partial",
   "theorems": [
    "Ccsds.C141_exact",
    "Ccsds.C141_twice",
    "Ccsds.C141_reordered",
    "Ccsds.C141_partial",
    "Ccsds.LateEx.C141_violated"
   ],
   "note": "The full statement (C141_full) is false of the code (C141_violated). C141_exact: the exact counts for every order of reception; C141_partial: the full statement when no packet is repeated or overtaken."
  },
  {
   "property": "C142",
   "status": "proved",
   "theorems": [
    "Ccsds.C142_info",
    "Ccsds.RepairsEx.C142_missing"
   ],
   "note": "The packets of the APID are unsegmented; other APIDs are arbitrary."
  },
  {
   "property": "C143",
   "status": "partial",
   "theorems": [
    "Ccsds.C143_exact",
    "Ccsds.C143_report",
    "Ccsds.C143_partial",
    "Ccsds.LateFramesEx.C143_violated"
   ],
   "note": "The full statement (C143_full) is false of the code (C143_violated). C143_exact and C143_report: the exact counts for every order of reception; C143_partial: the full statement when no frame is repeated or late."
  },
  {
   "property": "C15",
   "status": "proved",
   "theorems": [
    "Ccsds.C15_order"
   ],
   "note": ""
  },
  {
   "property": "C16",
   "status": "partial",
   "theorems": [
    "Ccsds.C16_partial",
    "Ccsds.C16_behaviour",
    "Ccsds.C16_violated",
    "Ccsds.C16_violated_picoseconds"
   ],
   "note": "the code violates the full statement (C16_full); exact behaviour for every format is C16_behaviour"
  },
  {
   "property": "C17",
   "status": "proved",
   "theorems": [
    "Ccsds.C17_decode",
    "Ccsds.fineNanos_spec",
    "Ccsds.C17_saturates"
   ],
   "note": "finite multipliers; the f64 product of a 24-bit integer and a single is exact"
  },
  {
   "property": "C18",
   "status": "partial",
   "theorems": [
    "Ccsds.C18_always_fails",
    "Ccsds.C18_violated",
    "Ccsds.C18_jpss_partial"
   ],
   "note": "the code violates the full statement (C18_full): the helper fails on every buffer"
  },
  {
   "property": "C19",
   "status": "proved",
   "theorems": [
    "Ccsds.C19_decode"
   ],
   "note": ""
  },
  {
   "property": "C20",
   "status": "proved",
   "theorems": [
    "Ccsds.C20_sorted",
    "Ccsds.C21_merge"
   ],
   "note": "for every run of the relational model, in which every hash iteration order is an arbitrary permutation"
  },
  {
   "property": "C21",
   "status": "proved",
   "theorems": [
    "Ccsds.C21_merge",
    "Ccsds.C21_keys_invariant",
    "Ccsds.C21_error",
    "Ccsds.C21_panic",
    "Ccsds.C21_total"
   ],
   "note": ""
  },
  {
   "property": "C22",
   "status": "proved",
   "theorems": [
    "Ccsds.C22_verbatim",
    "Ccsds.C21_merge",
    "Ccsds.C22_no_partial_group"
   ],
   "note": ""
  },
  {
   "property": "C23",
   "status": "partial",
   "theorems": [
    "Ccsds.C23_partial",
    "Ccsds.C23_violated"
   ],
   "note": "the documented order is violated (C23_full); C23_partial states the order the code produces instead"
  },
  {
   "property": "C24",
   "status": "partial",
   "theorems": [
    "Ccsds.C24_partial",
    "Ccsds.C24_violated"
   ],
   "note": "incomplete groups are written (C24_full violated); only the first packet's flags are checked"
  },
  {
   "property": "C25",
   "status": "partial",
   "theorems": [
    "Ccsds.C25_partial",
    "Ccsds.C25_violated",
    "Ccsds.C25_every_order",
    "Ccsds.C25_swap"
   ],
   "note": "the result depends on hash iteration order when two groups share time and order value; deterministic otherwise"
  },
  {
   "property": "C26",
   "status": "proved",
   "theorems": [
    "Ccsds.C26_first_markers",
    "Ccsds.C26_positions_unique",
    "Ccsds.C26_chunking"
   ],
   "note": "for readers that do not fail (failing reads: C58)"
  },
  {
   "property": "C27",
   "status": "proved",
   "theorems": [
    "Ccsds.C27_block_bits"
   ],
   "note": "complete blocks; truncated ones are C29"
  },
  {
   "property": "C28",
   "status": "proved",
   "theorems": [
    "Ccsds.C28_lockstep",
    "Ccsds.C28_gaps"
   ],
   "note": ""
  },
  {
   "property": "C29",
   "status": "partial",
   "theorems": [
    "Ccsds.C29_partial",
    "Ccsds.C29_violated"
   ],
   "note": "the documented behaviour (C29_full) is refuted; C29_partial says exactly what the code does instead"
  },
  {
   "property": "C30",
   "status": "proved",
   "theorems": [
    "Ccsds.C30_terminates",
    "Ccsds.C30_no_panic",
    "Ccsds.C30_no_panic_step",
    "Ccsds.C30_empty_marker",
    "Ccsds.C30_terminates_always"
   ],
   "note": "termination for readers that do not fail (every reader that ends: C30_terminates_always); panic freedom for every reader; the overflow of the statistics counter after 2^31 - 1 markers is C103"
  },
  {
   "property": "C31",
   "status": "proved",
   "theorems": [
    "Ccsds.C31_length",
    "Ccsds.C31_involution",
    "Ccsds.C31_append"
   ],
   "note": "every buffer; the derandomizer keeps the length, is its own inverse and acts position by position"
  },
  {
   "property": "C32",
   "status": "proved",
   "theorems": [
    "Ccsds.C32_bits",
    "Ccsds.C32_table_generated",
    "Ccsds.C32_flip_bits"
   ],
   "note": "bit n of the output is bit n of the input XOR bit n of the CCSDS sequence given by its recurrence, any length; the 255-byte table is a finite constant of the source and is compared with the recurrence by kernel evaluation"
  },
  {
   "property": "C33",
   "status": "proved",
   "theorems": [
    "Ccsds.C33_fields",
    "Ccsds.C33_none_iff",
    "Ccsds.C33_aos_roundtrip",
    "Ccsds.C33_tm_roundtrip",
    "Ccsds.C33_prefix",
    "Ccsds.C33_frame"
   ],
   "note": "bit-level layout for both versions, None iff, round trips"
  },
  {
   "property": "C34",
   "status": "partial",
   "theorems": [
    "Ccsds.C34_behaviour",
    "Ccsds.C34_partial",
    "Ccsds.C34_violated",
    "Ccsds.C34_any",
    "Ccsds.C34_zero"
   ],
   "note": "the code violates the full statement (C34_full): proved negation, exactness without wrap (C34_partial) and the exact result for all 2^48 pairs and both profiles (C34_behaviour)"
  },
  {
   "property": "C35",
   "status": "proved",
   "theorems": [
    "Ccsds.C35_frames",
    "Ccsds.C35_independent",
    "Ccsds.C35_panic",
    "Ccsds.C35_missing_exact"
   ],
   "note": "all CADU lists; the only panic is the C34 counter wrap with overflow checks"
  },
  {
   "property": "C36",
   "status": "proved",
   "theorems": [
    "Ccsds.C36_mpdu",
    "Ccsds.C36_flags"
   ],
   "note": "all frames and configurations"
  },
  {
   "property": "C37",
   "status": "proved",
   "theorems": [
    "Ccsds.C37_deinterleave",
    "Ccsds.C37_inverse"
   ],
   "note": "de-interleaving is the strided permutation; writing the rows back with the same stride is its inverse"
  },
  {
   "property": "C38",
   "status": "proved",
   "theorems": [
    "Ccsds.C38_error_iff",
    "Ccsds.C38_no_panic",
    "Ccsds.C38_interleave_zero",
    "Ccsds.C38_panic_iff"
   ],
   "note": "length check exactly decides rejection; accepted blocks never panic for depth >= 1 and fill <= 223*I"
  },
  {
   "property": "C39",
   "status": "proved",
   "theorems": [
    "Ccsds.C39_corrects",
    "Ccsds.C39_burst",
    "Ccsds.C39_sound",
    "Ccsds.bddCodec_bounded"
   ],
   "note": "relative to the bounded-distance contract of crate rs2 (Spec/ReedSolomon.lean), which bddCodec_bounded shows satisfiable for every code of minimum distance 33"
  },
  {
   "property": "C40",
   "status": "partial",
   "theorems": [
    "Ccsds.C40_partial",
    "Ccsds.C40_violated",
    "Ccsds.C40_uncorrectable_differs",
    "Ccsds.C40_violated_ccsds"
   ],
   "note": "the documented 'data returned unmodified' is false: check symbols are cut and fill is prepended; exact result proved"
  },
  {
   "property": "C41",
   "status": "partial",
   "theorems": [
    "Ccsds.C41_ignored",
    "Ccsds.C41_partial",
    "Ccsds.C41_violated"
   ],
   "note": "the detection switch is never read: full statement refuted, exact behaviour proved"
  },
  {
   "property": "C42",
   "status": "proved",
   "theorems": [
    "Ccsds.C42_prefix",
    "Ccsds.C42_none",
    "Ccsds.C42_abort",
    "Ccsds.C42_complete",
    "Ccsds.C42_rs"
   ],
   "note": "transition system over all schedules, capacities and pool sizes"
  },
  {
   "property": "C43",
   "status": "proved",
   "theorems": [
    "Ccsds.C43_no_deadlock",
    "Ccsds.C43_backpressure",
    "Ccsds.C43_finite",
    "Ccsds.C43_completes"
   ],
   "note": "progress in every reachable state, step bound 9*frames+4; finite input list"
  },
  {
   "property": "C44",
   "status": "proved",
   "theorems": [
    "Ccsds.C44_fill",
    "Ccsds.C44_frame",
    "Ccsds.C44_panic_iff",
    "Ccsds.C44_corrects",
    "Ccsds.C44_panic_any",
    "Ccsds.C44_detects"
   ],
   "note": "per-frame Reed-Solomon job"
  },
  {
   "property": "C45",
   "status": "partial",
   "theorems": [
    "Ccsds.C45_partial",
    "Ccsds.C45_violated",
    "Ccsds.C45_exact"
   ],
   "note": "header is not re-decoded after correction; holds for integrity Ok"
  },
  {
   "property": "C46",
   "status": "proved",
   "theorems": [
    "Ccsds.C46_reassembly",
    "Ccsds.C46_framing"
   ],
   "note": "any cut of a packet stream into frames with standard first-header pointers"
  },
  {
   "property": "C47",
   "status": "proved",
   "theorems": [
    "Ccsds.C47_channels",
    "Ccsds.C47_causal"
   ],
   "note": "per-frame outputs depend on the own channel only"
  },
  {
   "property": "C48",
   "status": "proved",
   "theorems": [
    "Ccsds.C48_no_gap"
   ],
   "note": ""
  },
  {
   "property": "C49",
   "status": "proved",
   "theorems": [
    "Ccsds.C49_wellformed"
   ],
   "note": ""
  },
  {
   "property": "C50",
   "status": "proved",
   "theorems": [
    "Ccsds.C50_bad",
    "Ccsds.C50_missing",
    "Ccsds.C50_skip",
    "Ccsds.C50_invalid"
   ],
   "note": "with C46_reassembly for the exact resume position"
  },
  {
   "property": "C51",
   "status": "proved",
   "theorems": [
    "Ccsds.C51_panic_iff",
    "Ccsds.C51_before_panic"
   ],
   "note": "finite frame list"
  },
  {
   "property": "C52",
   "status": "proved",
   "theorems": [
    "Ccsds.C52_roundtrip",
    "Ccsds.C52_deterministic",
    "Ccsds.C52_increasing",
    "Ccsds.C52_until",
    "Ccsds.C52_gaps"
   ],
   "note": "Pipeline without Reed-Solomon; with Reed-Solomon see C59"
  },
  {
   "property": "C53",
   "status": "partial",
   "theorems": [
    "Ccsds.C53_no_filters",
    "Ccsds.C53_untimed",
    "Ccsds.C53_partial",
    "Ccsds.C53_after_alone",
    "Ccsds.C53_panic",
    "Ccsds.C53_redecode",
    "Ccsds.C53_idempotent",
    "Ccsds.C53_violated"
   ],
   "note": "Proved in full without time bounds and with --before; with --after alone the code drops times from 2100-01-01 on (C53_violated), so C53_partial excludes those. Also: the output decodes to the selection; filtering is idempotent; panic case."
  },
  {
   "property": "C54",
   "status": "partial",
   "theorems": [
    "Ccsds.C54_total",
    "Ccsds.C54_partial",
    "Ccsds.C54_no_false_alarm",
    "Ccsds.C54_lines",
    "Ccsds.C54_table",
    "Ccsds.C54_no_packets",
    "Ccsds.C54_panic",
    "Ccsds.C54_violated"
   ],
   "note": "The code misses one extra greatest key (C54_violated); C54_partial says exactly when diff succeeds; C54_lines: the lines are the true multiset difference except at most one omitted line."
  },
  {
   "property": "C55",
   "status": "proved",
   "theorems": [
    "Ccsds.C55_parse",
    "Ccsds.C55_denotes_unique",
    "Ccsds.C55_error",
    "Ccsds.C55_apids",
    "Ccsds.C55_include_dropped",
    "Ccsds.C55_filter_command",
    "Ccsds.C55_filter_timed"
   ],
   "note": ""
  },
  {
   "property": "C56",
   "status": "proved",
   "theorems": [
    "Ccsds.C56_info",
    "Ccsds.C56_same_counts_as_library",
    "Ccsds.C56_panic"
   ],
   "note": ""
  },
  {
   "property": "C57",
   "status": "proved",
   "theorems": [
    "Ccsds.C57_summary",
    "Ccsds.C57_balance",
    "Ccsds.C57_totals",
    "Ccsds.C57_fixed",
    "Ccsds.C57_pipeline"
   ],
   "note": "The loop of frame_aos over any frame list; ends iff frames are long enough, which frames of the configured pipeline always are. Failing writes: C78."
  },
  {
   "property": "C58",
   "status": "partial",
   "theorems": [
    "Ccsds.C58_partial",
    "Ccsds.C58_violated",
    "Ccsds.C58_exact",
    "Ccsds.C58_visits_unique",
    "Ccsds.C58_no_silent_loss",
    "Ccsds.C58_inside_blocks"
   ],
   "note": "transparency of interruptions (C58_full) is refuted; C58_partial: errors are never taken for the end of the stream; C58_exact: the exact effect of every interruption; nothing is lost without an Err item (C58_no_silent_loss), interruptions inside blocks cost nothing (C58_inside_blocks)"
  },
  {
   "property": "C59",
   "status": "proved",
   "theorems": [
    "Ccsds.C59_rs_pipeline"
   ],
   "note": "codec contract Bounded is assumed of crate rs2"
  },
  {
   "property": "C60",
   "status": "proved",
   "theorems": [
    "Ccsds.C60_packets"
   ],
   "note": "codec contract Bounded is assumed of crate rs2"
  },
  {
   "property": "C61",
   "status": "proved",
   "theorems": [
    "Ccsds.C61_blocks",
    "Ccsds.C61_frames",
    "Ccsds.C61_rs"
   ],
   "note": ""
  },
  {
   "property": "C62",
   "status": "proved",
   "theorems": [
    "Ccsds.C62_filter",
    "Ccsds.C62_merge",
    "Ccsds.C62_filter_refused",
    "Ccsds.C62_merge_refused",
    "Ccsds.C62_filter_writes",
    "Ccsds.C62_merge_writes"
   ],
   "note": "Paths are names of separate files (links are not modelled)."
  },
  {
   "property": "C63",
   "status": "partial",
   "theorems": [
    "Ccsds.C63_merge_partial",
    "Ccsds.C63_filter_partial",
    "Ccsds.C63_violated"
   ],
   "note": "The full statement is false of the code: the output is created before ranges are parsed and inputs opened. Proved: after a failed merge the files are unchanged or the output is empty; after a failed filter also, unless it panicked."
  },
  {
   "property": "C64",
   "status": "partial",
   "theorems": [
    "Ccsds.C64_filter_partial",
    "Ccsds.C64_merge_partial",
    "Ccsds.C64_filter_in_place",
    "Ccsds.C64_merge_in_place",
    "Ccsds.C64_violated"
   ],
   "note": "False of the code if the output is an input (--clobber): the input is emptied first. Proved when it is not, and what happens when it is."
  },
  {
   "property": "C65",
   "status": "partial",
   "theorems": [
    "Ccsds.C65_partial",
    "Ccsds.C65_marker_ignored",
    "Ccsds.C65_interleave_mod",
    "Ccsds.C65_violated",
    "Ccsds.C65_refused",
    "Ccsds.C65_accepted"
   ],
   "note": "False of the code: the marker in the file is ignored and the interleave depth truncated to 8 bits. Proved for the standard marker and depths below 256."
  },
  {
   "property": "C66",
   "status": "partial",
   "theorems": [
    "Ccsds.C66_partial",
    "Ccsds.C66_merge",
    "Ccsds.C66_filter_untimed",
    "Ccsds.C66_hang",
    "Ccsds.C66_violated",
    "Ccsds.C66_filter_command",
    "Ccsds.C66_merge_command"
   ],
   "note": "False of the code for inputs whose reads keep failing (a directory): errors are skipped for ever. Proved for all readers that eventually report end of file (or interruptions and failures only finitely often)."
  },
  {
   "property": "C67",
   "status": "partial",
   "theorems": [
    "Ccsds.C67_partial",
    "Ccsds.C67_default",
    "Ccsds.C67_jpss_viirs",
    "Ccsds.C67_violated"
   ],
   "note": "False of the code: for equal times the listed APIDs come after the unlisted ones and in reverse order (as C23). Proved: everything else, the order in use, and the documented order when none is given."
  },
  {
   "property": "C68",
   "status": "proved",
   "theorems": [
    "Ccsds.C68_decode_packets",
    "Ccsds.C68_decode_packets_prefix",
    "Ccsds.C68_frame_decoder",
    "Ccsds.C68_packet_decoder",
    "Ccsds.C68_collect_groups",
    "Ccsds.C68_synchronize",
    "Ccsds.C68_synchronize_prefix",
    "Ccsds.C68_synchronize_any",
    "Ccsds.C68_pipeline_any",
    "Ccsds.C68_pipeline",
    "Ccsds.C68_pipeline_rs",
    "Ccsds.C68_pipeline_packets"
   ],
   "note": "For synchronize the readers are smooth (no failing reads); markers not empty."
  },
  {
   "property": "C69",
   "status": "proved",
   "theorems": [
    "Ccsds.C69_delivers",
    "Ccsds.C69_readahead",
    "Ccsds.C69_workers"
   ],
   "note": ""
  },
  {
   "property": "C70",
   "status": "proved",
   "theorems": [
    "Ccsds.C70_packets",
    "Ccsds.C70_packets_unique",
    "Ccsds.C70_groups",
    "Ccsds.C70_groups_unique",
    "Ccsds.C70_groups_sender",
    "Ccsds.C70_packet",
    "Ccsds.C70_lazy",
    "Ccsds.C70_lazy_panic"
   ],
   "note": "PyO3 conversions, datetime and float functions not modelled."
  },
  {
   "property": "C71",
   "status": "proved",
   "theorems": [
    "Ccsds.rsCode_distance",
    "Ccsds.C71_decoder",
    "Ccsds.C71_field",
    "Ccsds.C71_encode",
    "Ccsds.C71_recovers",
    "Ccsds.C71_ccsds"
   ],
   "note": "Assumes of rs2 only the contract Bounded."
  },
  {
   "property": "C72",
   "status": "partial",
   "theorems": [
    "Ccsds.C72_partial",
    "Ccsds.C72_takes_all",
    "Ccsds.C72_violated"
   ],
   "note": "The full statement C72_full is false of the code (C72_violated). C72_takes_all: the exact behaviour (the whole input is read); C72_partial: no thread blocks, no abort, every run ends."
  },
  {
   "property": "C73",
   "status": "partial",
   "theorems": [
    "Ccsds.C73_partial",
    "Ccsds.C73_hidden",
    "Ccsds.C73_violated"
   ],
   "note": "The full statement C73_full is false of the code (C73_violated, the nominal counter rollover). C73_hidden: the panic is always hidden; C73_partial: nothing decoded before is lost, and without overflow checks it holds."
  },
  {
   "property": "C74",
   "status": "proved",
   "theorems": [
    "Ccsds.C74_channel",
    "Ccsds.C74_frames"
   ],
   "note": "Decoded (Spec/PacketFrames) is a relation on frames and byte strings independent of the model's state; it is shown to have exactly one result for every input."
  },
  {
   "property": "C75",
   "status": "proved",
   "theorems": [
    "Ccsds.C75_memory"
   ],
   "note": ""
  },
  {
   "property": "C76",
   "status": "partial",
   "theorems": [
    "Ccsds.C76_violated",
    "Ccsds.C76_fill_is_data",
    "Ccsds.C76_vc63_partial",
    "Ccsds.C76_fill_before_partial",
    "Ccsds.C76_fill_between_partial"
   ],
   "note": "The full statements C76_fill_full and C76_vc63_full are false of the code (C76_violated). Proved: idle frames before synchronization or after damage; between packets when the idle bytes are no telemetry header and the next frame starts with a packet; channel 63 when no frame names a packet start; and what happens otherwise (C76_fill_is_data, C74)."
  },
  {
   "property": "C77",
   "status": "proved",
   "theorems": [
    "Ccsds.C77_write_all",
    "Ccsds.C77_filter",
    "Ccsds.C77_filter_total",
    "Ccsds.C77_merge",
    "Ccsds.C77_merge_total"
   ],
   "note": "any script of short, interrupted and failing writes; Cut compares with the fault-free command"
  },
  {
   "property": "C78",
   "status": "proved",
   "theorems": [
    "Ccsds.C78_success",
    "Ccsds.C78_files",
    "Ccsds.C78_error",
    "Ccsds.C78_config",
    "Ccsds.C78_refused",
    "Ccsds.C78_possible",
    "Ccsds.C78_unchanged",
    "Ccsds.C78_error_late"
   ],
   "note": "Reed-Solomon with the input file as output (a race) is left out"
  },
  {
   "property": "C79",
   "status": "partial",
   "theorems": [
    "Ccsds.C79_violated",
    "Ccsds.C79_partial",
    "Ccsds.C79_overwrites",
    "Ccsds.C79_in_place"
   ],
   "note": "the code violates the full statement: existing files are replaced, '-' is a file"
  },
  {
   "property": "C80",
   "status": "partial",
   "theorems": [
    "Ccsds.C80_violated",
    "Ccsds.C80_partial",
    "Ccsds.C80_skipped",
    "Ccsds.C80_truncates",
    "Ccsds.C80_framing",
    "Ccsds.C80_framing_hidden",
    "Ccsds.C80_framing_violated"
   ],
   "note": "the code violates the full statement; decode_packets reports the error, the commands drop it"
  },
  {
   "property": "C81",
   "status": "partial",
   "theorems": [
    "Ccsds.C81_violated",
    "Ccsds.C81_partial",
    "Ccsds.C81_kept",
    "Ccsds.C81_framing"
   ],
   "note": "the code violates the full statement; C81_kept and C81_framing describe the exact behaviour"
  },
  {
   "property": "C82",
   "status": "proved",
   "theorems": [
    "Ccsds.C82_channel",
    "Ccsds.C82_channels",
    "Ccsds.C82_sublist",
    "Ccsds.C82_no_loss",
    "Ccsds.C82_local"
   ],
   "note": "Frames are lost or damaged in any pattern; the output is `survivors` (Spec/Loss.lean), defined from stream positions only. Damaged frames are those marked uncorrectable/not corrected/failed by the integrity stage (Spec Bad)."
  },
  {
   "property": "C83",
   "status": "partial",
   "theorems": [
    "Ccsds.C83_cutoff",
    "Ccsds.C83_partial",
    "Ccsds.C83_violated"
   ],
   "note": "The code violates the full statement: frame_decoder ends at the first block with version bits 2 or 3 (framing/pipeline/mod.rs), so one damaged block silently ends everything. C83_cutoff is the exact behaviour on all transmissions. Repairable errors inside the frame header are excluded (the header is decoded before correction, C45), as is the counter 2^24-1 in overflow-checked builds (C34)."
  },
  {
   "property": "C84",
   "status": "proved",
   "theorems": [
    "Ccsds.Report.C84_readable",
    "Ccsds.Report.C84_command",
    "Ccsds.Report.C84_vcid",
    "Ccsds.Report.C84_injective",
    "Ccsds.Report.C84_bound"
   ],
   "note": "Model.Report.framingText is frame.rs:160-210; Spec.Report.framing is a reader that finds totals by label and cells by heading. C84_bound: rows with longer counts can be ambiguous."
  },
  {
   "property": "C85",
   "status": "partial",
   "theorems": [
    "Ccsds.Report.C85_exact",
    "Ccsds.Report.C85_partial",
    "Ccsds.Report.C85_violated"
   ],
   "note": "Violated by the code for file names with < > \" & ' ` = (HTML escaping). C85_exact describes the report for every file name. hifitime's texts for times are parameters with the contract ShowsTimes."
  },
  {
   "property": "C86",
   "status": "partial",
   "theorems": [
    "Ccsds.C86_partial",
    "Ccsds.C86_without_to",
    "Ccsds.C86_violated"
   ],
   "note": "Violated by the code: --to is exclusive although the help says that packets after it are dropped. C86_partial says exactly what is kept."
  },
  {
   "property": "C87",
   "status": "partial",
   "theorems": [
    "Ccsds.C87_partial",
    "Ccsds.C87_exact",
    "Ccsds.C87_unless_rs",
    "Ccsds.C87_rs_flag_kept",
    "Ccsds.C87_violated"
   ],
   "note": "False of the code: with a file without rs entry --rs stays in force (C87_violated, C87_rs_flag_kept). Exact: C87_exact (the flags stand in for the missing entry); ignored in all other cases (C87_partial); flags for Reed-Solomon only have no effect without it (C87_unless_rs)."
  },
  {
   "property": "C88",
   "status": "partial",
   "theorems": [
    "Ccsds.C88_partial",
    "Ccsds.C88_collected",
    "Ccsds.C88_sizes",
    "Ccsds.C88_until_error",
    "Ccsds.C88_violated",
    "Ccsds.C88_exact",
    "Ccsds.C88_exact_run",
    "Ccsds.C88_returns",
    "Ccsds.C88_determined"
   ],
   "note": "C88_partial holds for every reader; C88_full (each block directly behind a marker) is refuted by C88_violated: stale cached byte after a failed read of a block off the byte boundary (bytes.rs:50-56). C88_until_error: blocks before the first Err are those of the undisturbed stream. C88_exact gives the complete behaviour on every reader: the result of every successive call, positions included (Heard in Spec/AnyReads.lean, which C88_determined shows to leave nothing open); C88_returns: no call panics."
  },
  {
   "property": "C89",
   "status": "proved",
   "theorems": [
    "Ccsds.Report.C89_framing",
    "Ccsds.Report.C89_injective",
    "Ccsds.Report.C89_ascii",
    "Ccsds.Report.C89_file",
    "Ccsds.Report.C89_command",
    "Ccsds.Report.C89_incomplete",
    "Ccsds.Report.C89_failed",
    "Ccsds.Report.C89_info",
    "Ccsds.Report.C89_info_incomplete"
   ],
   "note": "serde_json layout and escaping as assumed in Model/Json; epochs and durations as the texts hifitime shows (parameters)"
  },
  {
   "property": "C90",
   "status": "partial",
   "theorems": [
    "Ccsds.C90_partial",
    "Ccsds.C90_violated",
    "Ccsds.C90_json_loses",
    "Ccsds.C90_info_text",
    "Ccsds.C90_info_json",
    "Ccsds.C90_info_prefix",
    "Ccsds.C90_info_total",
    "Ccsds.C90_diff",
    "Ccsds.C90_diff_total",
    "Ccsds.C90_framing",
    "Ccsds.C90_prefix",
    "Ccsds.C90_lines",
    "Ccsds.C90_complete",
    "Ccsds.C90_healthy"
   ],
   "note": "full statement C90_full violated by the code for JSON: the final brace can be lost although the command succeeds (C90_json_loses: for every report); proved for text, for diff, for framing's final text, and for JSON on an output that takes everything; C90_info_json gives exactly what can be lost"
  },
  {
   "property": "C91",
   "status": "proved",
   "theorems": [
    "Ccsds.Report.C91_readable",
    "Ccsds.Report.C91_command",
    "Ccsds.Report.C91_no_panic",
    "Ccsds.Report.C91_difference",
    "Ccsds.Report.C91_difference_bound"
   ],
   "note": "the packet that C54 shows to be left out is allowed for in the statement; C91_difference_bound: beyond 2^31 packets the Diff column is wrong"
  },
  {
   "property": "C92",
   "status": "proved",
   "theorems": [
    "Ccsds.C92_split_apids",
    "Ccsds.C92_split_time",
    "Ccsds.C92_twice",
    "Ccsds.C92_include_then_exclude"
   ],
   "note": ""
  },
  {
   "property": "C93",
   "status": "partial",
   "theorems": [
    "Ccsds.C93_partial",
    "Ccsds.C93_violated",
    "Ccsds.C93_unsegmented",
    "Ccsds.C123_filter"
   ],
   "note": "Violated: if dropping the packets between them makes two segmented groups of one APID adjacent, the merge reads them as one group and writes it at the time of the first (C93_violated: the early packets end up after the late ones). Proved when no selected segmented group is followed, among the selected ones, by one of the same APID (C93_partial), which always holds for unsegmented packets (C93_unsegmented)."
  },
  {
   "property": "C94",
   "status": "proved",
   "theorems": [
    "Ccsds.C94_again",
    "Ccsds.C94_command"
   ],
   "note": "Library and command level; the hypothesis separates groups by time or order value, as in C25."
  },
  {
   "property": "C95",
   "status": "partial",
   "theorems": [
    "Ccsds.C95_partial",
    "Ccsds.C95_violated",
    "Ccsds.C123_merge"
   ],
   "note": "The code violates the full statement (C95_full, refuted by C95_violated): segmented groups of one APID that become adjacent in the first result are read back as one group. Proved when reading the first result back gives the groups it was written from."
  },
  {
   "property": "C96",
   "status": "proved",
   "theorems": [
    "Ccsds.C96_split",
    "Ccsds.C96_split_keys",
    "Ccsds.C96_command"
   ],
   "note": "C96_split_keys needs no assumption on ties or copies."
  },
  {
   "property": "C97",
   "status": "proved",
   "theorems": [
    "Ccsds.C97_filter_after"
   ],
   "note": ""
  },
  {
   "property": "C98",
   "status": "proved",
   "theorems": [
    "Ccsds.C98_decode",
    "Ccsds.C98_filter",
    "Ccsds.C98_info",
    "Ccsds.C98_cut_short"
   ],
   "note": ""
  },
  {
   "property": "C99",
   "status": "partial",
   "theorems": [
    "Ccsds.C99_partial",
    "Ccsds.C99_violated",
    "Ccsds.C123_concat"
   ],
   "note": "The code violates the full statement (C99_full, refuted by C99_violated): groups are fused where the files meet. Proved when the last group of the first and the first group of the second file stay apart (StayApart)."
  }
 ]
}