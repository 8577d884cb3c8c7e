# Formal model of bmflynn/ccsds-rs in Lean 4

## Layout

* `lean/Verif/Model/*`  – executable model, one file per source file of `/repo`; every definition cites file and lines.
* `lean/Verif/Spec/*`   – small specifications, written without reference to the model (bit layouts, bit strings, LFSR, …).
* `lean/Verif/Proofs/*` – helper lemmas.
* `lean/Verif/Props/*`  – the property theorems (one section per property id), each with a non-vacuity `example`.
* `lean/Verif/Cases/*`  – stand beside `Props/*`: the theorems that have hypotheses, applied to concrete data that meets them.
* `lean/Verif/UnitTests.lean`, `lean/Verif/Conformance.lean`, `conformance/check.py` – the model run on the crate's tests and fixtures.
* `properties.jsonl`, `MANIFEST.json`, `seeded/LOG.jsonl` – property list, claims, record of seeded-bug experiments.

## Modelling conventions

* `u8/u16/u32` are `BitVec 8/16/32`; `usize` and lengths are `Nat` (allocation limits and 2^64 overflow are not modelled;
  every `usize` subtraction that could underflow is modelled as a panic).
* A Rust panic is the explicit outcome `Outcome.panic`; `Result`/`Option` stay data.
* Fixed-width arithmetic that may overflow goes through a build profile `Build` (overflow checks on = panic, off = wrap), and
  theorems are stated for both.
* An `io::Read` is a *script*: the list of results of successive `read` system calls (data of any length, errors, premature
  end-of-file), followed by an endless tail (EOF forever or an error forever). `read_exact` is std's default loop
  (retry on `Interrupted`). So every schedule of short reads, interrupts and failures is a value of the model.
* Iterators are state machines `next : S → Outcome (Option α × S)`; "iterating to exhaustion yields this list" is the inductive
  relation `Collects`. Caller-supplied iterators (`I: Iterator<Item = Frame>` …) are finite lists.
* `HashMap`/`HashSet` are finite maps; where iteration order is observable (Merger) the order is an explicit,
  universally quantified parameter.
* External crates are parameters with stated contracts: `rs2` (Reed–Solomon codec), `hifitime` (exact integer nanosecond
  `Duration::compose`, `Epoch` ordered by instant, leap-second offset an arbitrary monotone function), `crc`, `regex` (only
  the concrete pattern used), `crossbeam` channels and the `rayon` pool (transition system).
* `tracing` output, `Display/Debug`, clap parsing and pyo3 glue are not modelled. The two text templates and the two JSON reports are modelled (`Model.Report`, `Model.Json`); what is assumed of handlebars 6 (HTML escaping of `{{ }}`, white space control) and of serde_json (layout, escaping) is listed there. Standard output (`Model.Stdout`) is modelled after the source of Rust's standard library; the handling of a closed descriptor (`EBADF`, counted as success there) is not. `std::io::BufReader` (used by every command for its inputs and by `Merger`) is modelled in `Model.BufReader` after the standard library, and C100 shows it makes no difference, so the other modules read without it.

## Plan per property

| id | modelled | proof |
|---|---|---|
| C01 | `PrimaryHeader::decode` on BitVec shifts/masks | bit-level layout spec; round trips both ways |
| C02 | `Packet::decode` | case analysis on lengths |
| C03 | `Packet::read` incl. MAX_LEN assert | exact panic characterisation; agreement `_partial`; counterexample theorem |
| C04–C06 | `PacketDecoder` over scripted readers | strong induction on bytes; chunk/interrupt independence by reduction to the byte stream |
| C07 | same with errors and failing tails | induction on number of `next` calls |
| C08 | `missing_packets` in checked u16 | linear arithmetic on toNat |
| C09, C10 | `Summary::add` fold | invariant over histories; telescoping sum for loss patterns |
| C11, C12 | `PacketGroupIter` | induction on packets; counterexample + `_partial` for C12 |
| C13 | `complete`, `have_missing` | induction on adjacent pairs |
| C14–C19 | `timecode.rs`, `TimecodeDecoder`, Python EOS helper | arithmetic; counterexamples for C16, C18 |
| C20–C25 | `Merger::merge` with file contents as byte lists and iteration orders as permutations | sorting/dedup lemmas; counterexamples for C23, C24, C25 |
| C26–C30 | `Bytes`, `Synchronizer`, `BlockIter` | refinement to bit-string search; termination measure; counterexample for C29 |
| C31, C32 | `pn.rs` | XOR algebra; full-table kernel check (`decide`) lifted by periodicity to all positions |
| C33–C36 | `VCDUHeader`, `missing_frames`, `frame_decoder`, `MPDU` | as C01; arithmetic; induction over CADUs |
| C37–C41 | `DefaultReedSolomon` over an abstract `rs2` | index arithmetic; contract of a bounded-distance decoder |
| C42–C45 | submit/pool/dispatch/consumer transition system with bounded channels | inductive invariant over all schedules; progress; decreasing measure |
| C46–C51 | `FramedPacketIter` | refinement to per-channel byte-stream parsing; induction over frames |
| C52 | `Pipeline::start` | composition of C28, C31, C35 |
| C53–C57 | ccsds-cmd `filter`, `diff`, `parse_number_ranges`, `summarize`, `frame_aos` | list lemmas; counterexamples for C53, C54 |
| C58 | `Synchronizer` over interrupted readers | counterexample; the exact effect of every interruption (`Visits`, Spec/Interrupts.lean): simulation of `scan` with the list of interruption offsets |
| C59, C60 | composition of synchronizer, derandomizer, `frame_decoder`, Reed–Solomon stage under every schedule, `packet_decoder` | composition of C28, C31, C35, C39, C42–C44, C46–C50 |
| C61 | lengths at every stage | invariants, on every reader |
| C62–C64 | `ccsds filter`, `ccsds merge` on a file system (path ↦ content) | case analysis over the possible runs; counterexamples for C63, C64 |
| C65 | `ccsds framing --config` | composition with C57; counterexample |
| C66 | termination of decoder, synchronizer, commands | measure on the reader script; an endlessly failing reader as counterexample |
| C67 | `ccsds merge` end to end | C21, C23 instantiated with the command's arguments; counterexample |
| C68 | incremental output | `Takes next s items t`; the state for the longer input is the old state with the rest appended (simulation); markers of a prefix are a prefix of the markers; the pipeline by simulating `Sync.next` on the longer reader and by induction on the blocks |
| C69 | RS stage on a live stream | C42 invariant in a state where only the input or the consumer can move; counting |
| C70 | Python iterators | lazy composition modelled call by call (relations); simulation with the list-level iterator; then C04, C06, C11, C12 |
| C71 | the code (255, 223) | `Spec/RsCode.lean` (Mathlib fields); minimum distance and systematic encoding by Vandermonde; then C39 |
| C72 | abandoning the stage | `RsStage` with `consDrop`; false: C72_violated; exact: all frames are taken (invariant + progress + measure) |
| C73 | hidden panic | `Pipeline.Runs` over a panicking frame iterator; false: the rollover stream; exact: C73_hidden |
| C74 | semantics of packet_decoder | relation `Decoded` in Spec/PacketFrames; existence, uniqueness and agreement with the iterator for all frames |
| C75 | bounded memory of packet_decoder | invariant over all states visited by `next` |
| C76 | idle data | false: fill after a packet, channel 63; exact: C76_fill_is_data; parts: before sync, between packets with a non-header, channel 63 without starts |
| C77 | writers as scripts of `write` results (short, interrupted, failing); `write_all` of std; filter and merge loops with their `?` | induction over the script and over the packets; the result is compared (`Cut`) with the fault-free relations of C61–C64 |
| C78 | `ccsds framing` with its input, configuration, output and summary files | the loop with `?` against the fault-free loop of C57, case analysis of the command |
| C79 | same | false: overwrites, "-" is a file; exact: C79_overwrites; part: files that do not exist |
| C80 | readers that fail midway (`FailsMidway`) | false: C80_violated for filter, info, diff, merge; exact: decode_packets (C80_partial), what error-skipping consumers see (C80_skipped), untimed filter = truncated input (C80_truncates) |
| C81 | the help texts as predicates on strings | false: C81_violated; exact: C81_kept, C81_framing; part: no APID at the end of an excluded range |
| C82 | `packet_decoder` on a lossy channel; `survivors` of Spec/Loss.lean says which packets must come out, from the positions of packets and frames in the stream only | invariant over the tracker state against the position in the stream (`chan_loss`), then `C47_channels` for interleavings; locality and no-loss as separate theorems |
| C83 | C52 (with noise between blocks), C42/C43 and C82 composed: the pipeline on a bad link | the full statement is violated (undecodable header ends the iterator); exact behaviour `C83_cutoff` for all transmissions, `C83_partial` when all received headers decode |
| C84 | the text template of `ccsds framing` as a function to character lists (`Model.Report`); a reader that knows labels, headings and widths (`Spec.Report`) | round trip for all summaries whose counts have at most 12 digits |
| C85 | the text template of `ccsds info`, same approach; texts of times are a parameter with a contract | the full statement is violated (HTML escaping of the file name); `C85_exact` for all inputs |
| C86 | the help texts of `--from`, `--to`, `--apids` as a predicate, compared with C64/C21's description of the output | the full statement is violated at the time of `--to` itself; `C86_partial` is exact |
| C87 | two command lines with one configuration, over `FramingRun` | equality of the effective arguments; false: `--rs` without an `rs` entry (every checked frame has a disposition, so "not performed" is 0) |
| C88 | `Sync.next` over arbitrary readers (any events); `Sound` in Spec/ReadErrors.lean | invariant relating cache and remaining bytes to the delivered bytes, with at most one stale byte; false: each block follows a marker (witness: error inside a shifted block); exact: `Heard` (Spec/AnyReads.lean) says what every call returns, on the bytes to come, the upsets to come and the bit the search starts at; proved by relating cache, counter and reader script to these after every call |
| C89 | `Model.Json` (serde's derived structures, `to_string_pretty`, escaping); a JSON reader in Spec/Json.lean | `parse (pretty v) = v` by mutual induction; reading is stable under extension, so proper prefixes are refused |
| C90 | `Model.Stdout`: std's line-buffered standard output (`LineWriter` on `BufWriter`, 1024 bytes, flush at exit ignoring errors), `info` and `diff` as commands with their texts in bytes | invariant: taken ++ buffered = written so far, and no line end is buffered; false for JSON (no final line end), with the exact loss |
| C91 | `Model.Stdout` (`diffText`), `Model.Diff`; a reader by columns in Spec/DiffText.lean | the reader inverts each line and row; with C54 and C90 for the command |
| C92 | `Model.Filter` | C53's exact results for each run, C53_redecode (the output decodes to the packets written) and `List.filter` laws |
| C93 | `Model.Filter`, `Model.Merge` | violated: dropping packets can make segmented groups of one APID adjacent, which `collect_groups` fuses; proved when the filter keeps them apart, by C12_exact on the filtered file and a correspondence of the merge inputs |
| C94 | `Model.Merge`, `Model.Commands` | the groups `collect_groups` finds in the output are exactly characterised (C12_exact): fused groups stay contiguous, have the time of their first packet and keep their place; C21 and C25's sorting facts then give the same bytes |
| C95 | `Model.Merge` | violated: the first step can make segmented groups of one APID adjacent, which are fused when read back (`C95_violated`); proved when reading the first result back gives the groups it was written from |
| C96 | `Model.Merge`, `Model.Commands` | the two lists of groups one after the other satisfy the full description of the merge (C21); uniqueness of that description when the result is determined |
| C97 | `Model.Merge`, `Model.Filter` | the packets read back (C05) are those of the groups written, groups have one APID, so filtering drops whole groups; the rest satisfies the description of the merge with `--apids` |
| C98 | `Model.SpacePacket`, `Model.Filter`, `Model.Info` | C04/C05 give the packets of the joint file; sums and gaps by induction on the first list |
| C99 | `Model.Merge` | violated: groups are fused at the junction (`C99_violated`); proved when the last and first group stay apart, by C12_exact on the joint file |
| C100 | `Spec.Chunks`, `Model.BufReader` | every decoder commutes with cutting the script into single bytes (`…_flat` lemmas, by induction over reads and scans); `BufReader` refines its reader byte for byte |
| C101 | `Model/Crash.lean`: the states of the files at any moment of a run of filter, merge and framing (`FilterAt`, `MergeAt`, `FramingAt`): what the loop can have got so far, and any prefix of what was passed to `write`. Proved: only the output (and summary) changes; the output is a prefix of what successful runs leave (`C101_filter`, `C101_merge`, `C101_framing`), every prefix is possible (`…_any`), finished runs are moments (`…At_end`), a prefix of a packet file decodes to a prefix of its packets (`C101_readable`). Not modelled: a crash of the operating system. |
| C102 | `Model/LazyGroups.lean`: `PacketGroupIter` over the packet decoder, call by call (`Pull`, `Loop`, `Next`, `Groups`). Violated by the code for timed `filter` and `merge` (`C102_violated`); `C102_exact` says for every input exactly what a loop over the groups gets, `C102_exact_ends` when it ends, `C102_final` when the end is final, `C102_timed_partial`/`C102_merge_partial`: for inputs that end once the list-based models `Filter.PacketsWithTimes` and `Merger.Pointers` are exact; `C102_decode_packets`, `C102_info`, `C102_untimed`: these never look past the end. |
| C103 | `Model/PatternHits.lean`: `BlockIter::next` with the `i32` counters `pattern_hits`. Simulation against `Sync.next`, with the invariant that a counter is the number of markers found at its alignment. Violated in builds with overflow checks (`C103_violated`: 2^31 markers, by induction over their number); `C103_panics`, `C103_unchecked`, `C103_partial` (all theorems about `Sync.next` carry over for fewer than 2^31 items). |
| C104 | Invariant `Sync.At` (position of reader and cache in the stream) carried over readers extended by arbitrary later behaviour (`Iter.andThen`); induction over the markers. `C104_synchronize`, `C104_all`, `C104_pipeline` (`Hands`: calls of `next` one by one, no end of input needed). |
| C105 | Invariant on the length of the cache through `attempt`, `scan`, `fill`, `block`, `next`: `C105_synchronize`. |
| C106 | Markers of `A ++ B` are those of `A` and those of `B` moved (`markers_concat`); items determined by the markers; frames by `C35_frames` on the concatenated blocks (`frames_concat`); the Reed-Solomon jobs see header and data only; tallies of concatenated frame lists. `C106_synchronize`, `C106_pipeline`, `C106_framing`. |
| C107 | `C107_merge`, `C107_command`: the relation of all outcomes depends on the paths only through membership |
| C108 | `C108_exchange` (mirror image of the result), `C108_order` (equal multisets of keys give equal results) |
| C109 | Marker positions are characterised without following the scan (`markers_of`, `markers_facts`), so that they can be compared between two streams. `C109_survivors`, `C109_blocks`, `C109_pipeline`. |
| C110 | Induction over the packets of both files (`data_errors`). `C110_decode`, `C110_filter`, `C110_info`. |
| C111 | model `Timecode.decode` (Model/Timecode); `C111_order` from `C17_decode`: the fine nanoseconds are monotone (strictly, at one nanosecond or more per unit) in the fine field and below a second, so comparing (coarse, fine) is comparing the big-endian number; `C111_ties`, `C111_carry` show both side conditions are needed |
| C112 | model `Sync.next`, `FrameDecoder.next` (Model/Sync, Frame, Pipeline); `C112_slip`, `C112_pipeline` in Props/Slips: the ideal marker positions (Spec/Sync `Markers`) are determined by their being occurrences, far enough apart and covering all occurrences; `C112_costs_two` shows that the second CADU can really be lost |
| C113 | `Spec/Gf256.lean`: the field by coordinates (field laws by bilinearity and kernel checks on the basis), the dual-basis matrix, the code; C71/C39 instantiated; Horner's rule, so that the kernel computes the syndromes of the crate's fixture; geometric sum for constant words |
| C114 | `Spec/Transmitter.lean`: the transmitter as an executable function (systematic encoder by division by the generator polynomial, randomizer from the LFSR, header and pointer layout, multiplexer); `Proofs/Encoder.lean`: the encoder produces code words (Horner's rule at the roots) and the only ones; then C59 (pipeline), C47 (channels) and C46 (reassembly) for what it sends; the marker is bifix-free, so noise needs only to be free of markers |
| C115 | Frames before (C83) with counters modulo 2^24; the effect of the rollover is that of an empty frame lost before the frame with counter 0; invariant relating the last counter received to the last one sent; full statement refuted in both profiles by a three-frame transmission; exact behaviour proved |
| C116 | C34_zero: the exact counter pairs for which no loss is seen; C116_partial from C115_exact unless such a pair is received; refuted in both profiles by losing the middle one of three frames |
| C117 | `Spec/Link.lean`: fates of data units, which packets are whole; the transmissions of `Spec/Transmitter.lean` with these fates are a `Lossy` transmission of C115_exact: what the receiver remembers of a channel is the last frame heard (induction over the slots), markers are found because noise is free of them, `survivors` is turned into the arithmetic of stream positions and frame numbers |
| C118 | `Props/Cut.lean`: a half is the reception in which the units of the other half are lost (C117), so its packets are those whole under these fates; arithmetic of positions splits the list of packets at the cut |
| C119 | `Props/Cut.lean`: both outputs by C117; being whole is monotone in the fates |
| C120 | `Props/Stations.lean`: what each station writes by C117; a file of unsegmented packets has one group per packet (C05, C12_exact); C21 gives the merge as entries with distinct keys, sorted; keys determine packets, and a sorted permutation of a strictly increasing list is that list |
| C121 | `Props/Accounting.lean`: what comes out by C117; the file decodes to these packets (C05); the sequence ids of an APID are the numbers of the received packets modulo 16384, so C56 and C10_lost apply |
| C122 | `Props/TmFrames.lean`: C35 gives the two headers that are compared; their counters are 256 · master count + channel count (C33); C34_any gives the report as a function of the four counts, hence exactly when it is right; a complete stream of three frames is the counterexample |
| C123 | `Spec/Fuse.lean`, `Props/Regroup.lean`: `fuse` says how neighbours are joined; it yields a cut in the sense of C12_exact, so `collect_groups` gives it; the written packets are decoded again (C05), C53, C21, C98 say which were written; a joined group begins with a packet that passed the time bounds, hence the second run |
| C124 | Composition of C53_redecode with C56_info and with C54_lines / C54_partial; rows compared as sorted lists of APIDs |
| C125 | Groups of each part from the filtered-groups lemma of C93; both merges are `IsMerge` of inputs with equal keys and bytes |
| C126 | `Model/Copying`: the copying loop with a result for each `seek`, `read` and `write`; induction over the index against the fault-free loop |
| C127 | Props/LinkFraming: link model of C117 (Spec/Transmitter, Spec/Link) composed with the command of C57; induction over the data units, gaps by the exact behaviour of missing_frames (C34), integrity by C44/C40. |
| C128 | Props/RollReport: consequence of C127 with the exact gap law across the rollover; counterexample is a concrete 4-frame transmission. |
| C129 | Props/LinkPlain: same link model as C127; headers and gaps are those of a run with Reed–Solomon on the same recording (C127_frames), data and integrity from the exact frames of the pipeline (C52_until), then C57. |
| C130 | Model/Builders (RsOpts and Pipeline as the code builds them), Props/Settings: induction over the calls from the right; output by C42_none and C52_deterministic, detection switch by C41_ignored. |
| C131 | Props/Channels: all three runs see the same frames (`same_frames`: C42_none, C52_deterministic), so C57 gives the reports of one list of frames and of two filters of it; a report is determined by its frames (`vcids_unique`, `Tallies.unique`). |
| C132 | Proved (C132_reread for any frames on file, C132_command for the command's output): the same frames are put on a link that loses the others (C117), where the pipeline gives the same headers and gaps (Decodes/FrameOf) and packet_decoder does not distinguish unchecked from checked-ok frames (simulation, channel by channel via C47). Reservations about counters that roll over as in C117. |
| C133 | Model/Work counts the passes through the comparison loop of `scan`; it is shown to make the same calls as Model/Sync (C133_same). Potential 8·(bytes left) + (8 − pattern index): every mismatch lowers it by one. Not counted: copying blocks (one buffer of the block length per marker found). |
| C134 | Model as before. Blocks: by induction over the ideal markers (C26), each of which leaves room for its marker and block; frames: no more than the items of the synchronizer (induction over the pipeline's pulls), Reed-Solomon by C42. Packets: a potential — unread frames, caches, waiting packets — that no call of `next` increases (induction over the frame loop). `filter`: `List.Sublist` of the input through packets, groups and items, for ended and panicking runs. `merge`: the entries of one path are distinct groups of its file (C21, C22), hence no more bytes than the file; induction over the files. |
| C135 | Model as before. `C135_full` is false (`C135_violated`: seven zero bytes are a packet). Exact behaviour: fewer than 6 bytes are never seen; a byte f other than 0xFF gives n / (257·f + 7) further packets (C05 with those packets appended; the length field of a run of f by `decide` over the 256 values); six or more bytes 0xFF make the decoder panic after the packets (induction), so that `info`, `filter`, `merge` and `diff` panic. |
| C136 | Props/HeaderDamage: induction over the stream, comparing the two runs of the decoder; the boundary of a packet depends on the length bytes only. Example: an APID and a data byte damaged; one bit of a length field and nothing is decoded any more. |
| C137 | Props/MergeCheck: the entries a merge writes (C21), each once, against the groups of each input; counting packets by any predicate on header and bytes; then C56 for info and C54 for diff (whose omission of one key only removes lines). |
| C138 | Props/WhichCopy: std's HashSet::union takes the larger set first and adds what the other has in addition; the pointers of a file correspond one to one to its keys; two visits, both orders. Example: a damaged copy wins in every run (WhichCopyEx.C138_damaged). C138_master: any number of inputs, one of which has more groups than there are distinct ones in all the others; its copies are kept by every later union. |
| C139 | `next` does not depend on the byte count but for the offsets (`next_moved`), so the second run is the first one's rest by determinism, on any reader; for blocks the reader after `k + 1` whole blocks delivers the stream from the next byte boundary (`prompt_run`), so the markers found are those of an ideal synchronizer started there; equal to the rest when aligned, refuted by a concrete shifted stream otherwise (Props/Resume) |
| C140 | `Decoded` (C74) splits where a frame reports a gap (`decoded_append`), each pass is C82_channel over the sender's whole stream with the other frames lost; closed form by stream positions, equality of counts by the start the pointer names; concrete counterexample for a frame without a start (Props/Again) |
| C141 | Props/LateCounts: the gap between two consecutive numbers is their distance plus 16384 if it is not positive (gap_step); induction over the history (C141_exact). C141_twice (a recording played twice), C141_reordered (nothing lost, wrong order), C141_partial (no setbacks: exactly the lost ones); C141_full is refuted by a packet received twice (LateEx.C141_violated). |
| C142 | Props/MergeRepairs: the numbers of the packets in the merged file are strictly increasing (C20: sorted, C21: no key twice; equal times mean equal numbers and so equal keys) and are those of the inputs (C21: complete); then C141. Example: numbers 1, 3 and 3, 1, 1 in two files, one packet reported missing (RepairsEx.C142_missing). |
| C143 | Props/LateFrames: induction over the frames of the channel (late_prefix) with the three cases of missing_frames (C34_any): a later frame counts the difference, a frame that is not later counts 16777215 too many. C143_full is the wanted statement, refuted by counters 5, 6, 6 (LateFramesEx.C143_violated); C143_exact says what is counted for every order, C143_report the same of a line of the report of `ccsds framing` (C57), C143_partial is the full statement without setbacks. |

Properties marked "(The code violates this …)" in `properties.jsonl` are handled as: full statement as a Lean `def` (a `Prop`),
a theorem `…_violated` proving its negation from a concrete witness, and the strongest true version as `…_partial`.

A property is `partial` in `MANIFEST.json` only because the code does not have it; there is none whose full statement is believed true and unproved.

## Trusted base

* Lean 4.33.0's kernel (the whole development is kernel-checked; `vcheck` replays it). No `sorry`, no own axioms, no `native_decide`/`bv_decide`;
  `decide +kernel` reduces in the kernel.
* The axioms used are at most `propext`, `Quot.sound`, `Classical.choice` (list per theorem at the end of this file).
* That the model describes the code. Every definition in `Verif/Model` cites the lines it models; what is simplified is said there and below.
  Evidence, besides reading: the crate's own unit tests and doc examples hold of the model (`Verif/UnitTests.lean`), and the model, run as a program
  (`Verif/Conformance.lean`, `conformance/check.py`; not part of any proof), finds in `ccsds-lib/tests/fixtures/snpp_synchronized_cadus.dat`, as it is and
  shifted by 1 to 7 bits, exactly the frames, packets and checksum the repository's note records from two other decoders. (The crate's other fixtures
  are git-lfs pointers without data.)
* The contracts of code outside the repository, below.

### Modelled

| source | model |
|---|---|
| ccsds-lib/src/spacepacket/mod.rs (`PrimaryHeader`, `Packet`, `PacketDecoder`, `PacketGroup`, `PacketGroupIter`, `missing_packets`) | `Model/SpacePacket.lean` |
| ccsds-lib/src/spacepacket/summary.rs | `Model/Summary.lean` |
| ccsds-lib/src/timecode.rs, spacepacket/timecode.rs, the timecode helpers of ccsds-py | `Model/Timecode.lean` |
| ccsds-py/src/lib.rs (iterators, `Packet` constructor and getters) | `Model/Python.lean` |
| ccsds-lib/src/spacepacket/merge.rs | `Model/Merge.lean` |
| ccsds-lib/src/framing/mod.rs (`VCDUHeader`, `MPDU`, `Frame`, `missing_frames`, `frame_decoder`) | `Model/Frame.lean` |
| ccsds-lib/src/framing/pn.rs | `Model/Pn.lean` |
| ccsds-lib/src/framing/bytes.rs, synchronizer.rs | `Model/Sync.lean`; `Model/PatternHits.lean` (the counters `pattern_hits`, which the other models leave out) |
| ccsds-lib/src/framing/reed_solomon.rs | `Model/ReedSolomon.lean` |
| ccsds-lib/src/framing/pipeline/* (threads, channels, pool; builder) | `Model/RsStage.lean`, `Model/Pipeline.lean`, `Model/Builders.lean` (the options and their setters) |
| ccsds-lib/src/framing/packets.rs | `Model/Packets.lean` |
| ccsds-cmd/src/{filter,diff,info,frame,merge,config}.rs, main.rs (`parse_number_ranges`, `main` for filter, merge, framing) | `Model/{Filter,Diff,Info,Framing,NumberRanges,Commands}.lean`, `Model/Writer.lean` (outputs that fail; `ccsds framing` with its files), `Model/Copying.lean` (the copying loop of `merge` with a result for each seek, read and write; in the other models of `merge` a group that was found can be read again), `Model/LazyGroups.lean` (`filter` with time bounds and `merge` over inputs that go on after their end; the other models of these two are exact for inputs that end once), `Model/Crash.lean` (killed commands; a crash of the operating system, after which bytes it had accepted may be missing, is not modelled) |
| std's `read_exact`, `write_all`, `HashMap` | `Model/Reader.lean`, `Model/Writer.lean`, `Model/HMap.lean` |

### Not modelled

* ccsds-lib/src/framing/ocf.rs (commented out), `sync_on_thread` (never called), logging, `Display`/`Debug` output (except the reports), clap's parsing, pyo3 glue.
* Allocation failure and `usize` overflow (2^64): lengths are `Nat`. Huge format parameters of timecodes (sizes near 2^64) are outside the model.
* Files that change while a command reads them; two paths that name the same file (links); failing writes to the terminal other than as an error at the end (`Model.Writer` models failing, short and interrupted writes to the output files of filter, merge and framing).
* `read_exact` on an error: std leaves the buffer unspecified; the code never looks at it, except in `Bytes::fill` of the synchronizer, where the
  bytes already copied are kept as std's loop does.
* A panic of a pool job is a process abort (rayon); a panic of the frame iterator unwinds the submission thread, which is modelled as the end of that thread.
* Infinite caller-supplied iterators: inputs are finite lists (a stream under way is covered by its finite prefixes, as the stages are incremental).

### Contracts of external code

* `rs2`: a `Codec` (two functions); theorems that need more assume `Bounded k code`: it is a bounded-distance decoder (radius 16) of some code with words of
  255 bytes. (`C71_decoder`: the contract can be met for the Reed–Solomon code (255, 223) in every byte representation; that `rs2` implements such a decoder is not proved. C113 does the same with the concrete code of the standard; the crate's test message and all 260 words of the fixture file are words of it, the latter checked by `conformance/check.py`.)
* `hifitime`: `Duration::compose`, `Epoch` construction are exact integer arithmetic in nanoseconds; comparison of epochs is comparison of `τ e`, an arbitrary
  function; `Hash` agrees with `Eq`; `to_utc_seconds` (floating point) followed by the conversion to microseconds is an arbitrary function `micros`.
* `crc`: an arbitrary function. `regex`: the pattern used, with an arbitrary set of Unicode digits that contains the ASCII ones.
* `crossbeam` channels: bounded FIFO; `rayon`: spawned jobs run in any order, concurrently, at most `workers` at a time; dropping the pool lets them finish.
* `HashMap`/`HashSet` iteration: any order.

## Axioms per theorem

(from `#print axioms`, for the theorems named in `MANIFEST.json`, namespace `Ccsds`)

* **none**: C100_buffered_new, C111_carry, C26_positions_unique, C34_violated

* **propext**: C102_delivers, C16_violated_picoseconds, C36_flags, C44_fill, C44_frame, C68_collect_groups, C70_lazy, C82_sublist, Report.C91_difference_bound

* **propext, Quot.sound**: C01_short, C01_prefix, C07_fails_forever, C07_ends, C08_gap, C08_any, C10_missing, C100_decode_packets, C100_info, C100_filter, C100_diff, C100_merge, C100_read_exact, C100_buffered_read, C100_buffered_read_exact, C100_timed, C100_pointers, C101_filter_any, Cmd.filterAt_end, C102_exact, C102_exact_ends, C102_decode_packets, C102_info, C102_untimed, C102_final, C102_violated, Spec.Transmitter.pointer_first, C115_straddle, C12_violated, C12_fuse_id, C122_violated, C12_fuse_id, C126_merge, C126_success, C126_sound, C126_pipes, consecutive_iff, C130_options, C130_algorithm, C130_pipeline, C130_command, C139_packets, C14_decode, C14_prefix, LateFramesEx.C143_violated, C16_partial, C16_behaviour, C16_violated, fineNanos_spec, C22_no_partial_group, C24_violated, C25_violated, C31_length, C32_table_generated, C32_flip_bits, C33_prefix, C34_behaviour, C34_partial, C35_independent, C37_deinterleave, C41_ignored, C53_no_filters, C53_after_alone, C54_total, C54_panic, C55_apids, C55_include_dropped, C56_panic, C58_visits_unique, C62_filter, C62_filter_refused, C62_filter_writes, C63_filter_partial, C64_filter_partial, C66_filter_untimed, C68_decode_packets, C68_decode_packets_prefix, C68_frame_decoder, C68_packet_decoder, C69_workers, C70_packets_unique, C70_groups_unique, C77_write_all, C77_filter, C77_filter_total, C82_no_loss, C82_local, Report.C84_vcid, C88_determined, C90_prefix, C90_lines, C90_complete, C90_healthy, C95_violated, C99_violated

* **propext, Classical.choice, Quot.sound**: C01_fields, C01_reserialize, C01_decode_serialized, C02_decode, C02_success_iff, C02_trailing, C03_partial, C03_panics_iff, C03_violated, C04_cut, C05_roundtrip, C06_chunking, C07_error, C07_eof, C07_packet, C07_panic, C07_cases_exhaustive, C07_never_ends, C08_zero_iff, C09_totals, C10_lost, C10_summary_counts_losses, C100_synchronize, C100_pipeline, C100_pipeline_rs, C100_framing, C101_filter, C101_merge, C101_merge_any, C101_framing, C101_framing_any, C101_framing_unique, C101_readable, Cmd.mergeAt_end, Cmd.framingAt_end, C102_timed_partial, C102_merge_partial, C103_unchecked, C103_partial, C103_panics, C103_violated, C104_synchronize, C104_all, C104_pipeline, C105_synchronize, C106_synchronize, C106_pipeline, C106_framing, C107_merge, C107_command, C108_exchange, C108_order, C109_survivors, C109_blocks, C109_pipeline, C11_partition, C11_fused, C110_decode, C110_filter, C110_info, C110_groups, C110_timed, C110_merge, C111_order, C111_ties, C112_slip, C112_pipeline, C112_costs_two, C113_distance, C113_linear, C113_constant, C113_fixture, C113_not_conventional, C113_recovers, C113_constant_block, C113_tests, C113_doc_example, C114_received, C114_all, C114_encoder, rsParity_fixture, Spec.Transmitter.decode_header, C115_violated, C115_exact, C115_partial, C116_violated, C34_zero, C116_partial, C117_received, C117_far, Spec.Transmitter.C117_spoil, Spec.Transmitter.C118_cut, Spec.Transmitter.gives_some, Spec.Transmitter.C119_better, Spec.Transmitter.gives_some, C12_partial, C12_exact, C12_recovered_iff, C12_fuse, Spec.Transmitter.C120_stations, C120_union, Spec.Transmitter.C121_info, C122_exact, C122_iff, C122_partial, C122_one_channel, C122_no_panic, C123_read, C123_filter, C123_timed, C123_timed_again, C123_merge, C123_concat, C12_fuse, C124_info, C124_diff, C125_split, C126_command, C127_frames, C127_command, C128_violated, C128_exact, C128_partial, C129_frames, C129_command, C13_complete, C13_have_missing, C130_output, C130_perform, C131_split, C131_records, C131_finish, C131_both, C132_reread, C132_command, C133_same, C133_any, C133_total, C133_linear, C134_blocks, C134_frames, C134_rs, C134_framing, C134_packets, C134_packets_all, C134_recording, C134_filter, C134_merge, C135_violated, C135_short, C135_fill, C135_zeros, C135_ones, C135_info_zeros, C135_info_ones, C135_filter_ones, C135_merge_ones, C135_diff_ones, C136_decode, C136_info, C136_filter, C137_counts, C137_info, C137_diff, C137_sorted, C138_two, C138_larger, C138_tie, WhichCopyEx.C138_damaged, C138_master, C139_reader, C139_synchronize_reader, C139_synchronize, C139_synchronize_partial, ResumeEx.C139_violated, C14_roundtrip, C140_passes, C140_repeated, C140_complete, C140_noticed, C140_repeated_partial, AgainEx.C140_violated, C141_exact, C141_twice, C141_reordered, C141_partial, LateEx.C141_violated, C142_info, RepairsEx.C142_missing, C143_exact, C143_report, C143_partial, C15_order, C17_decode, C17_saturates, C18_always_fails, C18_violated, C18_jpss_partial, C19_decode, C20_sorted, C21_merge, C21_merge, C21_keys_invariant, C21_error, C21_panic, C21_total, C22_verbatim, C21_merge, C23_partial, C23_violated, C24_partial, C25_partial, C25_every_order, C25_swap, C26_first_markers, C26_chunking, C27_block_bits, C28_lockstep, C28_gaps, C29_partial, C29_violated, C30_terminates, C30_no_panic, C30_no_panic_step, C30_empty_marker, C30_terminates_always, C31_involution, C31_append, C32_bits, C33_fields, C33_none_iff, C33_aos_roundtrip, C33_tm_roundtrip, C33_frame, C34_any, C34_zero, C35_frames, C35_panic, C35_missing_exact, C36_mpdu, C37_inverse, C38_error_iff, C38_no_panic, C38_interleave_zero, C38_panic_iff, C39_corrects, C39_burst, C39_sound, bddCodec_bounded, C40_partial, C40_violated, C40_uncorrectable_differs, C40_violated_ccsds, C41_partial, C41_violated, C42_prefix, C42_none, C42_abort, C42_complete, C42_rs, C43_no_deadlock, C43_backpressure, C43_finite, C43_completes, C44_panic_iff, C44_corrects, C44_panic_any, C44_detects, C45_partial, C45_violated, C45_exact, C46_reassembly, C46_framing, C47_channels, C47_causal, C48_no_gap, C49_wellformed, C50_bad, C50_missing, C50_skip, C50_invalid, C51_panic_iff, C51_before_panic, C52_roundtrip, C52_deterministic, C52_increasing, C52_until, C52_gaps, C53_untimed, C53_partial, C53_panic, C53_redecode, C53_idempotent, C53_violated, C54_partial, C54_no_false_alarm, C54_lines, C54_table, C54_no_packets, C54_violated, C55_parse, C55_denotes_unique, C55_error, C55_filter_command, C55_filter_timed, C56_info, C56_same_counts_as_library, C57_summary, C57_balance, C57_totals, C57_fixed, C57_pipeline, C58_partial, C58_violated, C58_exact, C58_no_silent_loss, C58_inside_blocks, C59_rs_pipeline, C60_packets, C61_blocks, C61_frames, C61_rs, C62_merge, C62_merge_refused, C62_merge_writes, C63_merge_partial, C63_violated, C64_merge_partial, C64_filter_in_place, C64_merge_in_place, C64_violated, C65_partial, C65_marker_ignored, C65_interleave_mod, C65_violated, C65_refused, C65_accepted, C66_partial, C66_merge, C66_hang, C66_violated, C66_filter_command, C66_merge_command, C67_partial, C67_default, C67_jpss_viirs, C67_violated, C68_synchronize, C68_synchronize_prefix, C68_synchronize_any, C68_pipeline_any, C68_pipeline, C68_pipeline_rs, C68_pipeline_packets, C69_delivers, C69_readahead, C70_packets, C70_groups, C70_groups_sender, C70_packet, C70_lazy_panic, rsCode_distance, C71_decoder, C71_field, C71_encode, C71_recovers, C71_ccsds, C72_partial, C72_takes_all, C72_violated, C73_partial, C73_hidden, C73_violated, C74_channel, C74_frames, C75_memory, C76_violated, C76_fill_is_data, C76_vc63_partial, C76_fill_before_partial, C76_fill_between_partial, C77_merge, C77_merge_total, C78_success, C78_files, C78_error, C78_config, C78_refused, C78_possible, C78_unchanged, C78_error_late, C79_violated, C79_partial, C79_overwrites, C79_in_place, C80_violated, C80_partial, C80_skipped, C80_truncates, C80_framing, C80_framing_hidden, C80_framing_violated, C81_violated, C81_partial, C81_kept, C81_framing, C82_channel, C82_channels, C83_cutoff, C83_partial, C83_violated, Report.C84_readable, Report.C84_command, Report.C84_injective, Report.C84_bound, Report.C85_exact, Report.C85_partial, Report.C85_violated, C86_partial, C86_without_to, C86_violated, C87_partial, C87_exact, C87_unless_rs, C87_rs_flag_kept, C87_violated, C88_partial, C88_collected, C88_sizes, C88_until_error, C88_violated, C88_exact, C88_exact_run, C88_returns, Report.C89_framing, Report.C89_injective, Report.C89_ascii, Report.C89_file, Report.C89_command, Report.C89_incomplete, Report.C89_failed, Report.C89_info, Report.C89_info_incomplete, C90_partial, C90_violated, C90_json_loses, C90_info_text, C90_info_json, C90_info_prefix, C90_info_total, C90_diff, C90_diff_total, C90_framing, Report.C91_readable, Report.C91_command, Report.C91_no_panic, Report.C91_difference, C92_split_apids, C92_split_time, C92_twice, C92_include_then_exclude, C93_partial, C93_violated, C93_unsegmented, C123_filter, C94_again, C94_command, C95_partial, C123_merge, C96_split, C96_split_keys, C96_command, C97_filter_after, C98_decode, C98_filter, C98_info, C98_cut_short, C99_partial, C123_concat
