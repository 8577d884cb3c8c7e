{"id": "C01", "title": "Primary header decode is the exact CCSDS bit layout", "statement": "PrimaryHeader::decode on a buffer of at least 6 bytes returns exactly the fields of the CCSDS 133.0-B layout (version 3 bits, type 1, secondary-header flag 1, APID 11, sequence flags 2, sequence count 14, length 16, all MSB first); decoding any serialized in-range header gives that header back, re-serializing a decoded header gives the 6 bytes back, and only the first 6 bytes matter. Shorter buffers give NotEnoughData{got,wanted:6}.", "quantifier": "every byte buffer and every header whose fields are in range", "why_tests_cant": "2^48 headers; a swapped or mis-masked bit shows only for particular bit patterns", "anchors": ["ccsds-lib/src/spacepacket/mod.rs: PrimaryHeader::decode"]}
{"id": "C02", "title": "Packet::decode takes exactly the packet named by the header", "statement": "Packet::decode(buf) succeeds iff buf holds at least 6 + len_minus1 + 1 bytes, and then header is the decoded header and data is exactly the first 6 + len_minus1 + 1 bytes; trailing bytes never change the result; otherwise the error is NotEnoughData with got = buf.len() and wanted = 6 (no header) or the total length.", "quantifier": "every byte buffer", "why_tests_cant": "buffer lengths and header lengths are unbounded combinations; the boundary cases depend on both", "anchors": ["ccsds-lib/src/spacepacket/mod.rs: Packet::decode"]}
{"id": "C03", "title": "Packet::read never panics and agrees with Packet::decode", "statement": "Reading a packet from any reader holding the bytes of one full packet returns the same packet that Packet::decode returns for those bytes, without panicking, for every header length value 0..65535. (The code violates this for len_minus1 >= 65530: Packet::MAX_LEN is 65536 while the largest packet is 65542 bytes.)", "quantifier": "every packet length field and every body", "why_tests_cant": "needs a 65 kB packet at the extreme lengths; unit tests use small packets", "anchors": ["ccsds-lib/src/spacepacket/mod.rs: Packet::read, Packet::MAX_LEN"]}
{"id": "C04", "title": "decode_packets cuts the stream into consecutive packets without losing or inventing a byte", "statement": "For every finite byte stream, the concatenated data of the packets produced, in order, is a prefix of the stream; each packet's length equals its header's; each packet's recorded offset is the position of its first byte; and what remains after the last packet is too short to be a whole packet (so the iterator ends only at end of data). (Streams containing a header with len_minus1 >= 65530 panic instead: C03.)", "quantifier": "every byte stream of any length", "why_tests_cant": "unbounded stream and packet counts; tests sample a fixture file", "anchors": ["ccsds-lib/src/spacepacket/mod.rs: PacketDecoder::next, decode_packets"]}
{"id": "C05", "title": "decode_packets inverts packet concatenation", "statement": "Writing any list of well-formed packets (of at most 65536 bytes each; larger ones trip the assertion of C03) back to back (optionally followed by an incomplete packet) and decoding returns exactly that list of packets, in order, with their offsets.", "quantifier": "every list of well-formed packets and every incomplete tail", "why_tests_cant": "all list lengths, all packet sizes up to the limit", "anchors": ["ccsds-lib/src/spacepacket/mod.rs: decode_packets, Packet::read"]}
{"id": "C06", "title": "decode_packets does not depend on how the reader chunks its data", "statement": "The sequence of packets depends only on the bytes delivered: short reads of any sizes and any number of ErrorKind::Interrupted results between them change nothing.", "quantifier": "every schedule of short reads and interrupts of the underlying reader", "why_tests_cant": "read schedules are chosen by the OS; a test on a file or slice sees one schedule", "anchors": ["ccsds-lib/src/spacepacket/mod.rs: Packet::read, PacketDecoder::next"]}
{"id": "C07", "title": "decode_packets forwards I/O errors and ends exactly at end of input", "statement": "A non-EOF, non-Interrupted I/O error is yielded as Some(Err(..)) and iteration may continue after it; end of input (also in the middle of a packet) ends the iterator with None. Corollary (hazard): on a reader that keeps failing the iterator never ends, so consumers using filter_map(Result::ok) do not terminate.", "quantifier": "every reader behaviour (scripts of data, errors and end of input) and every number of calls to next", "why_tests_cant": "infinite runs and arbitrary error positions", "anchors": ["ccsds-lib/src/spacepacket/mod.rs: PacketDecoder::next"]}
{"id": "C08", "title": "missing_packets is the modular sequence gap", "statement": "For sequence ids in 0..=16383, missing_packets(cur, last) = (cur - last - 1) mod 16384, the result is at most 16383, and no u16 overflow occurs; hence it is 0 iff cur is last's successor, with rollover.", "quantifier": "all 2^28 pairs of valid ids, in both overflow-check profiles", "why_tests_cant": "tests try a handful of pairs; rollover is where the error would be", "anchors": ["ccsds-lib/src/spacepacket/mod.rs: missing_packets, PrimaryHeader::SEQ_MAX"]}
{"id": "C09", "title": "Summary totals are exact sums", "statement": "After adding any sequence of packets, count/bytes are the number of packets and the sum of their data lengths; each APID's entry holds the same for the packets of that APID and exists iff a packet of that APID was added; overall count, bytes and missing equal the sum of the per-APID values.", "quantifier": "every sequence of packets", "why_tests_cant": "histories are unbounded and interleave APIDs arbitrarily", "anchors": ["ccsds-lib/src/spacepacket/summary.rs: Summary::add, ApidSummary"]}
{"id": "C10", "title": "Summary missing counts what was lost, per APID and independent of interleaving", "statement": "An APID's missing count is the sum of modular gaps between consecutive packets of that APID and does not depend on packets of other APIDs; if the packets of an APID are a continuous sequence (with rollover) from which runs shorter than 16384 were deleted between the first and last received, missing is exactly the number of deleted packets.", "quantifier": "every interleaving of APIDs and every loss pattern", "why_tests_cant": "loss patterns and interleavings are exponential in the stream length", "anchors": ["ccsds-lib/src/spacepacket/summary.rs: Summary::add", "ccsds-lib/src/spacepacket/mod.rs: missing_packets"]}
{"id": "C11", "title": "collect_groups is a lossless ordered partition", "statement": "For every packet sequence, every group yielded is non-empty, all its packets have the group's APID, and concatenating the groups' packets in order gives the input sequence exactly; all results are Ok.", "quantifier": "every packet sequence", "why_tests_cant": "unbounded sequences of flags and APIDs", "anchors": ["ccsds-lib/src/spacepacket/mod.rs: PacketGroupIter::next, collect_groups"]}
{"id": "C12", "title": "collect_groups recovers the sender's groups", "statement": "If the input is a concatenation of sender groups (either one unsegmented packet, or FIRST CONT* LAST of one APID), collect_groups returns exactly these groups. (The code violates this: a segmented group followed by a packet of the same APID absorbs it. It holds when every segmented group is followed by a packet of a different APID.)", "quantifier": "every list of sender groups", "why_tests_cant": "depends on adjacency of groups of the same APID, which fixtures with alternating APIDs never exercise", "anchors": ["ccsds-lib/src/spacepacket/mod.rs: PacketGroupIter::next"]}
{"id": "C13", "title": "PacketGroup::complete is exactly completeness", "statement": "complete() is true iff the group is a single unsegmented packet, or has at least two packets, starts with FIRST, ends with LAST and every packet's sequence id is the successor (mod 16384) of its predecessor's. have_missing() is true iff some adjacent pair is not consecutive, and panics on an empty packets vector.", "quantifier": "every packet vector with valid sequence ids", "why_tests_cant": "all lengths and id sequences incl. rollover", "anchors": ["ccsds-lib/src/spacepacket/mod.rs: PacketGroup::complete, PacketGroup::have_missing"]}
{"id": "C14", "title": "CDS timecodes decode to the exact instant", "statement": "With num_day in {2,3} and num_submillis in {0,2}, decode returns the UTC instant 1958-01-01 + days*86400 s + millis ms + micros us exactly, reads only the leading num_day+4+num_submillis bytes, reports NotEnoughData exactly when there are fewer, and decoding an encoded instant returns it.", "quantifier": "every buffer and every day/ms/us value", "why_tests_cant": "the value space is 2^72; overflow or truncation happens at the extremes", "anchors": ["ccsds-lib/src/timecode.rs: decode, decode_cds"]}
{"id": "C15", "title": "CDS timecodes order like their bytes", "statement": "For a fixed format, for in-range fields (ms of day < 86400000, us < 1000) the decoded instants compare exactly as the timecode byte strings compare lexicographically.", "quantifier": "every pair of in-range timecodes", "why_tests_cant": "relational property over pairs", "anchors": ["ccsds-lib/src/timecode.rs: decode_cds"]}
{"id": "C16", "title": "Unsupported CDS formats are reported as Timecode errors, never a panic or wrong value", "statement": "For a CDS format outside the documented table decode returns Error::Timecode, and the documented 4-byte (picosecond) sub-millisecond field adds ps/1000 ns. (The code violates this: num_day > 4 panics, num_day 0, 1 and 4 are accepted, and the 4-byte field is multiplied by 1000000 in u32, which panics or wraps for every value of 4295 and above and is wrong for every value except 0.)", "quantifier": "every format value and every buffer", "why_tests_cant": "format values are unbounded usize; overflow depends on the field value", "anchors": ["ccsds-lib/src/timecode.rs: decode_cds, Format"]}
{"id": "C17", "title": "CUC timecodes decode to the exact instant", "statement": "With num_coarse in 1..=4 and num_fine in 0..=3 the result is the TAI instant 1958-01-01 + coarse s + trunc(fine*fine_mult) ns (multiplier 1 if absent), from the leading bytes only; other values give Error::Timecode whatever the buffer; short buffers give NotEnoughData.", "quantifier": "every buffer, every format, every finite single-precision multiplier", "why_tests_cant": "floating point and byte-count combinations", "anchors": ["ccsds-lib/src/timecode.rs: decode_cuc"]}
{"id": "C18", "title": "The EOS timecode helper of the Python bindings decodes EOS timecodes", "statement": "_decode_eos_timecode(buf) succeeds for every buffer of at least 6 bytes. (The code violates this for every buffer: it passes num_coarse=2, num_fine=4, which decode rejects.)", "quantifier": "every buffer", "why_tests_cant": "a universally quantified failure: no sample shows that no input works", "anchors": ["ccsds-py/src/lib.rs: decode_eos_timecode", "ccsds-lib/src/timecode.rs: decode_cuc"]}
{"id": "C19", "title": "TimecodeDecoder uses the last format registered for the packet's APID, else the default", "statement": "After any sequence of register calls, decode(packet) equals timecode::decode applied to packet.data[6..] with the format most recently registered for the packet's APID, or the default if none; it panics iff the packet's data is shorter than 6 bytes.", "quantifier": "every registration history and packet", "why_tests_cant": "registration histories are unbounded", "anchors": ["ccsds-lib/src/spacepacket/timecode.rs: TimecodeDecoder::register, TimecodeDecoder::decode"]}
{"id": "C20", "title": "Merger output is sorted by time, then by APID order", "statement": "The packet groups written by merge are in non-decreasing order of (decoded time of the first packet, APID order value), whatever the hash-map/hash-set iteration orders.", "quantifier": "every set of input files and every hash iteration order", "why_tests_cant": "hash iteration order is random per run", "anchors": ["ccsds-lib/src/spacepacket/merge.rs: Merger::merge"]}
{"id": "C21", "title": "Merger output is deduplicated and complete", "statement": "The set of (time, APID, sequence id) keys written is exactly the set of keys of the eligible groups in all inputs (first packet FIRST or UNSEGMENTED, time decodable and within [from,to), APID selected), each written exactly once, whatever the order or repetition of the inputs and the hash iteration orders.", "quantifier": "every list of input files, every option setting, every hash iteration order", "why_tests_cant": "combinatorial over files and random hash orders", "anchors": ["ccsds-lib/src/spacepacket/merge.rs: Merger::merge, Ptr"]}
{"id": "C22", "title": "Merger writes whole groups verbatim", "statement": "Every byte run written by merge is exactly the concatenated packet bytes of one group of one input file, and merge performs no other writes.", "quantifier": "every set of input files", "why_tests_cant": "depends on offsets and sizes of all preceding packets", "anchors": ["ccsds-lib/src/spacepacket/merge.rs: Merger::merge"]}
{"id": "C23", "title": "Merger honours with_apid_order", "statement": "For groups with equal time, APIDs listed earlier in the order are written before those listed later, and listed APIDs before unlisted ones. (The code violates this: the sort value is 4096 - index, so the listed APIDs come after all unlisted ones and in reverse order.)", "quantifier": "every order list and every pair of groups with equal time", "why_tests_cant": "tests do not set an order", "anchors": ["ccsds-lib/src/spacepacket/merge.rs: Merger::with_apid_order"]}
{"id": "C24", "title": "Merger drops incomplete groups", "statement": "Groups for which complete() is false are not written. (The code violates this: only the first packet's flags are checked.)", "quantifier": "every input", "why_tests_cant": "needs groups with inner gaps", "anchors": ["ccsds-lib/src/spacepacket/merge.rs: Merger (doc), Merger::merge"]}
{"id": "C25", "title": "Merger output is deterministic", "statement": "For fixed inputs the bytes written do not depend on hash iteration order. (The code violates this when two eligible groups share time and order value but differ in sequence id; it holds when all eligible groups of the inputs with equal keys have equal bytes and (time, order) values are pairwise distinct between different keys.)", "quantifier": "every pair of hash iteration orders", "why_tests_cant": "nondeterminism cannot be excluded by repeated runs", "anchors": ["ccsds-lib/src/spacepacket/merge.rs: Merger::merge (sort_by_key over HashSet)"]}
{"id": "C26", "title": "synchronize finds the first sync marker at any bit offset", "statement": "Each successive block starts right after the first occurrence of the sync marker, viewed as a bit string, at or after the current bit position of the stream; the iterator ends iff no further complete occurrence exists. No occurrence is skipped and none is invented, for any marker of at least one byte.", "quantifier": "every byte stream, marker and block length", "why_tests_cant": "all alignments of marker and data, with partial marker look-alikes just before the real marker", "anchors": ["ccsds-lib/src/framing/synchronizer.rs: Synchronizer::scan, create_patterns, left_shift", "ccsds-lib/src/framing/bytes.rs: Bytes"]}
{"id": "C27", "title": "Block data are the stream's bits following the marker", "statement": "A block's data are exactly the block_length*8 bits following the marker, re-aligned to bytes; scanning resumes at the bit right after the block; reported offset and bit identify that position and `last` is the distance between the offsets of successive blocks.", "quantifier": "every byte stream, marker, block length and bit alignment", "why_tests_cant": "8 alignments times all data; off-by-one in carried partial bytes", "anchors": ["ccsds-lib/src/framing/synchronizer.rs: Synchronizer::block, BlockIter::next, Loc, Block"]}
{"id": "C28", "title": "Contiguous CADUs are all recovered in lock-step", "statement": "If the stream from the first marker occurrence on is a sequence of (marker, block) pairs, all complete blocks are returned in order even when block data contain the marker bit pattern, at every bit alignment of the sequence.", "quantifier": "every list of blocks of the block length, every bit alignment and every leading bits not forming an earlier marker", "why_tests_cant": "data-dependent false syncs", "anchors": ["ccsds-lib/src/framing/synchronizer.rs: BlockIter::next"]}
{"id": "C29", "title": "A truncated final block ends the iterator", "statement": "If fewer bits than a full block follow the last marker the iterator simply ends (next returns None) without yielding a block. (The code violates this: byte-aligned streams yield a final Ok block padded with zero bytes that were never in the stream, and bit-shifted streams yield a final Err(UnexpectedEof).)", "quantifier": "every truncation point", "why_tests_cant": "truncation at every byte position and alignment", "anchors": ["ccsds-lib/src/framing/synchronizer.rs: BlockIter (doc), Synchronizer::block", "ccsds-lib/src/framing/bytes.rs: Bytes::fill"]}
{"id": "C30", "title": "synchronize terminates and does not panic", "statement": "For every finite stream and every marker of at least one byte, iterating synchronize reaches None after finitely many items, without panicking, and never yields more blocks than fit. (With an empty marker it never terminates. The i32 statistics counter of the synchronizer, which can overflow after 2^31 - 1 markers, is the subject of C103.)", "quantifier": "every finite stream, every marker of at least one byte and every block length", "why_tests_cant": "termination for all inputs", "anchors": ["ccsds-lib/src/framing/synchronizer.rs: Synchronizer::scan, BlockIter::next"]}
{"id": "C31", "title": "derandomize is an involution that preserves length", "statement": "derandomize(derandomize(d)) = d and the length is unchanged, for every buffer, including buffers longer than the 255-byte table.", "quantifier": "every byte buffer of any length", "why_tests_cant": "unbounded length and content", "anchors": ["ccsds-lib/src/framing/pn.rs: _derandomize_loop, DefaultDerandomizer"]}
{"id": "C32", "title": "derandomize XORs with the CCSDS pseudo-random sequence", "statement": "Bit n of the output is bit n of the input XOR bit n of the sequence defined by h(x) = x^8+x^7+x^5+x^3+1 with all-ones start, for every n; the constant table equals generate_pn_sequence(0xa9, 0xff).", "quantifier": "every bit position of every buffer", "why_tests_cant": "a single wrong table entry or a wrong wrap at 255 shows only at that position", "anchors": ["ccsds-lib/src/framing/pn.rs: SEQUENCE, generate_pn_sequence, flip_bits"]}
{"id": "C33", "title": "VCDU header decode is the exact bit layout", "statement": "VCDUHeader::decode returns None iff there are fewer than 6 bytes or the version bits are 2 or 3; otherwise version, spacecraft id, virtual channel id and counter are exactly the bit fields of the version-1 (TM) or version-2 (AOS) layout; decoding a serialized in-range header returns it.", "quantifier": "every byte buffer", "why_tests_cant": "2^48 headers", "anchors": ["ccsds-lib/src/framing/mod.rs: VCDUHeader::decode, decode_v1, decode_v2"]}
{"id": "C34", "title": "missing_frames is the modular counter gap", "statement": "For 24-bit counters missing_frames(cur,last) = (cur - last - 1) mod 2^24, without overflow. (The code violates this: COUNTER_MAX is 2^24-2, so a wrap is under-counted by one, repeated counters give 2^24-2, and every wrap from counter 2^24-1 underflows u32: panic with overflow checks, 4294967295 for the nominal 2^24-1 -> 0 rollover without.)", "quantifier": "all 2^48 counter pairs and both overflow-check profiles", "why_tests_cant": "rollover happens once per 16.7M frames", "anchors": ["ccsds-lib/src/framing/mod.rs: missing_frames, VCDUHeader::COUNTER_MAX"]}
{"id": "C35", "title": "frame_decoder is a one-to-one, order-preserving map with per-VCID gap counts", "statement": "Up to the first CADU whose header does not decode, frame i holds exactly CADU i's data and decoded header, integrity None, and missing = 0 if the frame is fill or the first of its VCID, else missing_frames(counter, counter of the previous frame of the same VCID); frames of other VCIDs have no influence. The first undecodable header ends the iterator.", "quantifier": "every CADU sequence", "why_tests_cant": "interleavings of virtual channels are unbounded", "anchors": ["ccsds-lib/src/framing/pipeline/framing.rs: CaduDecoderIter::next, frame_decoder"]}
{"id": "C36", "title": "MPDU access is exact and panics only for short frames", "statement": "Frame::mpdu(izone, trailer) yields the bytes between header+insert zone and trailer, with first_header the low 11 bits of its first two bytes and payload the rest; it is None iff that range has fewer than 2 bytes and it panics iff the frame is shorter than 6 + izone + trailer.", "quantifier": "every frame, insert-zone and trailer length", "why_tests_cant": "slice bounds for all length combinations", "anchors": ["ccsds-lib/src/framing/mod.rs: Frame::mpdu, MPDU::decode, MPDU::payload"]}
{"id": "C37", "title": "Reed-Solomon de-interleave/interleave are inverse", "statement": "For every interleave depth I >= 1 and every block of 255*I bytes, splitting into I codewords and writing them back with stride I reproduces the block; byte j belongs to codeword j mod I at position j div I.", "quantifier": "every depth and block", "why_tests_cant": "all depths and positions", "anchors": ["ccsds-lib/src/framing/reed_solomon.rs: deinterleave, DefaultReedSolomon::perform"]}
{"id": "C38", "title": "perform accepts exactly the right block length", "statement": "perform returns Err(IntegrityAlgorithm) iff block length + virtual fill differs from 255*interleave, for every setting of the other options. (Accepted lengths can still panic: interleave 0, or virtual fill larger than 223*interleave.)", "quantifier": "every block length, interleave, virtual fill and option", "why_tests_cant": "length arithmetic for all parameters", "anchors": ["ccsds-lib/src/framing/reed_solomon.rs: can_correct, perform"]}
{"id": "C39", "title": "perform returns the transmitted frame when every codeword is correctable", "statement": "If each codeword of the (zero-filled) block is within the code's correction radius of a code word, perform returns exactly the transmitted frame bytes without check symbols and without virtual fill, with Integrity::Ok if nothing was changed and Corrected otherwise; in particular any error burst of up to 16*I consecutive bytes is corrected.", "quantifier": "every transmitted block, every error pattern within the radius, every depth and virtual fill", "why_tests_cant": "error patterns are astronomically many", "anchors": ["ccsds-lib/src/framing/reed_solomon.rs: perform"]}
{"id": "C40", "title": "perform reports uncorrectable and uncorrected blocks as documented", "statement": "If some codeword is uncorrectable the disposition is Uncorrectable; with correction off, errors give NotCorrected; in both cases the returned data are the input bytes with check symbols kept. (The code violates the data part: Uncorrectable data has the check symbols removed, and both include the virtual fill zeros.)", "quantifier": "every block and option setting", "why_tests_cant": "needs specific damage and fill combinations", "anchors": ["ccsds-lib/src/framing/reed_solomon.rs: perform (doc), with_correction (doc)"]}
{"id": "C41", "title": "with_detection(false) skips the algorithm", "statement": "With detection disabled, perform neither detects nor corrects and only removes check symbols. (The code violates this: the flag is never read; the result is the same as with detection enabled for every input.)", "quantifier": "every block", "why_tests_cant": "equality of two configurations on all inputs", "anchors": ["ccsds-lib/src/framing/reed_solomon.rs: with_detection, perform"]}
{"id": "C42", "title": "The threaded Reed-Solomon stage preserves frame order under every schedule", "statement": "Under every interleaving of submitter, pool workers, dispatcher and consumer, what the consumer has received at any time is a prefix, in input order, of the per-frame results; when the stage terminates with the consumer still reading, it has received the result of every input frame exactly once.", "quantifier": "every thread schedule, channel capacity, pool size and input sequence", "why_tests_cant": "schedules are chosen by the OS", "anchors": ["ccsds-lib/src/framing/pipeline/reed_solomon.rs: do_reed_solomon, reed_solomon"]}
{"id": "C43", "title": "The threaded Reed-Solomon stage cannot deadlock", "statement": "In every reachable state in which not every thread has finished, some thread can take a step, provided the consumer keeps reading or has dropped the iterator, for every channel capacity including 0; every run is finite.", "quantifier": "every reachable state, capacity and pool size", "why_tests_cant": "deadlock is a schedule-dependent event", "anchors": ["ccsds-lib/src/framing/pipeline/reed_solomon.rs: do_reed_solomon"]}
{"id": "C44", "title": "The Reed-Solomon stage leaves fill frames untouched and replaces data only on success", "statement": "Fill frames (VCID 63) pass unchanged with integrity None; other frames keep header and missing, get the disposition, and have their data replaced iff it is Ok or Corrected; a frame whose length does not fit the configuration panics the worker (process abort). Without correction a block whose code words are all intact is accepted and every other block is marked NotCorrected and left as it is.", "quantifier": "every frame and option setting", "why_tests_cant": "all frames", "anchors": ["ccsds-lib/src/framing/pipeline/reed_solomon.rs: do_reed_solomon"]}
{"id": "C45", "title": "Frame headers are consistent with corrected frame data", "statement": "After the Reed-Solomon stage reports Ok or Corrected, the frame's header equals the header decoded from its data. (The code violates this for Corrected: the header was decoded before correction and is not refreshed, so vcid/counter may be those of the damaged bytes; it holds for Ok.)", "quantifier": "every frame and error pattern", "why_tests_cant": "needs errors in the header bytes", "anchors": ["ccsds-lib/src/framing/pipeline/reed_solomon.rs: do_reed_solomon", "ccsds-lib/src/framing/pipeline/builder.rs: Pipeline::start"]}
{"id": "C46", "title": "packet_decoder reassembles packets from any framing", "statement": "If a list of valid packets (version 0, telemetry) is written back to back and cut into frame payloads of any sizes with correct first-header pointers, frames arriving in order without loss, packet_decoder yields exactly the packets completed, in order.", "quantifier": "every packet list and every way of cutting into frames", "why_tests_cant": "all alignments of packet and frame boundaries, including headers split across frames", "anchors": ["ccsds-lib/src/framing/packets.rs: FramedPacketIter::next", "ccsds-lib/src/framing/pipeline/packets.rs: packet_decoder"]}
{"id": "C47", "title": "packet_decoder treats virtual channels independently", "statement": "The packets produced on arrival of a frame depend only on that frame and the earlier frames of the same VCID; interleaving channels arbitrarily yields, for each channel, the packets that channel alone would yield, in the same order.", "quantifier": "every interleaving of any number of channels", "why_tests_cant": "interleavings are exponential", "anchors": ["ccsds-lib/src/framing/packets.rs: FramedPacketIter::next"]}
{"id": "C48", "title": "No packet spans a gap", "statement": "Every packet produced is a contiguous slice of the concatenated payloads of consecutive frames of one VCID, none of which (after the first) is preceded by missing frames, and none of which is Uncorrectable or NotCorrected.", "quantifier": "every frame sequence with any losses and dispositions", "why_tests_cant": "loss patterns are exponential", "anchors": ["ccsds-lib/src/framing/packets.rs: FramedPacketIter::next"]}
{"id": "C49", "title": "Every packet produced by packet_decoder is well-formed", "statement": "Its data length equals 6 + len_minus1 + 1, its header is the decoding of its data, version and type are 0, and its bytes come from frame payloads.", "quantifier": "every frame sequence", "why_tests_cant": "adversarial payload bytes", "anchors": ["ccsds-lib/src/framing/packets.rs: FramedPacketIter::next, valid_packet_header"]}
{"id": "C50", "title": "packet_decoder resynchronizes at the next first-header pointer", "statement": "After a lost or bad frame, or an invalid packet header, decoding of a channel resumes at the first later frame of that channel that has a first-header pointer inside its payload, at exactly that pointer, as if the channel started there.", "quantifier": "every history before and after the loss", "why_tests_cant": "arbitrary histories", "anchors": ["ccsds-lib/src/framing/packets.rs: FramedPacketIter::next, VcidTracker::reset"]}
{"id": "C51", "title": "packet_decoder panics only on frames too short for an MPDU", "statement": "Iteration panics iff it reaches a frame shorter than 6 + izone + trailer + 2 bytes (whatever its integrity); for all other frame sequences it terminates with None after finitely many packets.", "quantifier": "every frame sequence and configuration", "why_tests_cant": "panic freedom for all inputs", "anchors": ["ccsds-lib/src/framing/packets.rs: FramedPacketIter::next", "ccsds-lib/src/framing/mod.rs: Frame::mpdu"]}
{"id": "C52", "title": "Pipeline round trip from frames to bit stream and back", "statement": "Randomizing frames, prefixing each with the marker, concatenating, delaying by any number of bits and running Pipeline (no Reed-Solomon) returns frames with exactly the original data, headers and gap counts.", "quantifier": "every list of frames of the configured length, every bit delay with leading bits that do not complete an earlier marker", "why_tests_cant": "composition of all stages over all inputs", "anchors": ["ccsds-lib/src/framing/pipeline/builder.rs: Pipeline::start"]}
{"id": "C53", "title": "filter keeps exactly the selected packets", "statement": "ccsds filter writes, in input order, exactly the packets (or groups, when a time bound is given) whose APID is included (if an include list is given) and not excluded and whose time is >= after and < before where given. (The code violates this for --after alone: packets from 2100-01-01 on are dropped.)", "quantifier": "every input stream and filter setting", "why_tests_cant": "all combinations of filters and packets", "anchors": ["ccsds-cmd/src/filter.rs: filter, packets_with_times"]}
{"id": "C54", "title": "diff reports no difference iff the packet multisets agree", "statement": "ccsds diff succeeds iff both files hold the same multiset of (APID, sequence id, CRC) keys and at least one packet. (The code violates this: when one side is exhausted the other side's current key is never counted, so a file with exactly one extra trailing key compares as equal; reported differences are always real.)", "quantifier": "every pair of files", "why_tests_cant": "depends on the order of exhaustion", "anchors": ["ccsds-cmd/src/diff.rs: diff"]}
{"id": "C55", "title": "Number-range arguments expand to exactly the listed values", "statement": "parse_number_ranges accepts exactly lists of decimal numbers n and ranges a-b with a < b (values below 2^32) and returns, in order, each number and every value of each range inclusive of both ends. (The --exclude help text says the end is exclusive; the code includes it. Values above 65535 are silently dropped by the caller, so an include list of only such values includes everything.)", "quantifier": "every list of argument strings", "why_tests_cant": "all strings", "anchors": ["ccsds-cmd/src/main.rs: parse_number_ranges"]}
{"id": "C56", "title": "info reports exact counts, gaps and time span", "statement": "ccsds info reports total and per-APID packet and missing counts equal to those of the library Summary, first/last times equal to the minimum/maximum decoded time over packets with a secondary header, duration their difference, APIDs in ascending order without duplicates.", "quantifier": "every packet file", "why_tests_cant": "unbounded histories", "anchors": ["ccsds-cmd/src/info.rs: summarize"]}
{"id": "C57", "title": "framing command accounts for every frame and writes fixed-size records", "statement": "In the summary, totals equal the sums over VCIDs; every counted frame is in exactly one of ok, corrected, uncorrectable, error, not_performed; the output is the concatenation, in order, of the first `length` bytes of each selected frame with an acceptable disposition, so its size is a multiple of length.", "quantifier": "every frame sequence and selection", "why_tests_cant": "unbounded histories", "anchors": ["ccsds-cmd/src/frame.rs: frame_aos"]}
{"id": "C58", "title": "Interrupted reads are transparent to synchronize", "statement": "A read that fails with ErrorKind::Interrupted loses no data: iterating synchronize past the error yields the same Ok blocks as without the interruption; other read errors are passed on as Err items and never mistaken for the end of the stream. (The first half is violated: bytes already compared with the marker are dropped when a read fails inside the scan.)", "quantifier": "every stream, marker, block length and placement of failing reads", "why_tests_cant": "failure at every read call", "anchors": ["ccsds-lib/src/framing/synchronizer.rs: Synchronizer::scan", "ccsds-lib/src/framing/bytes.rs: Bytes::next"]}
{"id": "C59", "title": "Pipeline with Reed-Solomon delivers the transmitted frames", "statement": "If the received bit stream carries, behind sync markers, (randomized) interleaved code blocks with at most 16 symbol errors per codeword and an undamaged frame header, Pipeline with_rs delivers, under every thread schedule, exactly the transmitted frame data without check symbols, in order, with disposition Ok or Corrected, the decoded headers and exact gap counts; fill frames pass through as received; no schedule aborts or gets stuck.", "quantifier": "every list of blocks, every error pattern within the correction radius, every bit delay, every cut of the stream into reads, every schedule and pool size", "why_tests_cant": "composition of all stages over all inputs, error patterns and schedules", "anchors": ["ccsds-lib/src/framing/pipeline/builder.rs: Pipeline::start", "ccsds-lib/src/framing/pipeline/reed_solomon.rs: reed_solomon"]}
{"id": "C60", "title": "End to end: packets in, packets out", "statement": "Packets cut anywhere into the frames of one virtual channel with consecutive counters, coded, interleaved, randomized, sent behind markers, damaged within the correction radius and received in any pieces, come out of Pipeline with_rs followed by packet_decoder exactly and in order, up to the last packet that arrived completely.", "quantifier": "every packet list, every cut into frames, every correctable error pattern, every bit delay and read chunking, every schedule", "why_tests_cant": "quantifies over all inputs of every stage at once", "anchors": ["ccsds-lib/src/framing/pipeline/builder.rs: Pipeline::start", "ccsds-lib/src/framing/pipeline/packets.rs: packet_decoder"]}
{"id": "C61", "title": "Blocks and frames have the configured size on every input", "statement": "Every Ok item of synchronize has exactly the configured length and every frame of a Pipeline exactly the block length, on every reader, including truncated, failing and interrupted ones; after Reed-Solomon, intact and corrected frames are shorter by exactly 32 bytes per interleave, all others keep their length.", "quantifier": "every reader, marker, length, codec answer and schedule", "why_tests_cant": "all inputs and failure placements", "anchors": ["ccsds-lib/src/framing/synchronizer.rs: Synchronizer::block", "ccsds-lib/src/framing/bytes.rs: Bytes::fill", "ccsds-lib/src/framing/pipeline/reed_solomon.rs"]}
{"id": "C62", "title": "The commands write only their output", "statement": "ccsds filter and ccsds merge change no file but their output; an output that exists is changed only with --clobber, otherwise the command fails and no file changes; after success the output exists.", "quantifier": "every content of the file system, every argument list, every way of reading the files, every outcome", "why_tests_cant": "all histories of the file system and all failure points", "anchors": ["ccsds-cmd/src/main.rs: Commands::Merge, Commands::Filter"]}
{"id": "C63", "title": "A failed command changes nothing", "statement": "If ccsds filter or ccsds merge fails, every file is as it was.", "quantifier": "every content of the file system, every argument list, every failure", "why_tests_cant": "all failure points", "anchors": ["ccsds-cmd/src/main.rs: Commands::Merge, Commands::Filter"]}
{"id": "C64", "title": "The output is computed from the inputs as they were", "statement": "After a successful ccsds filter (merge) the output holds what filtering (merging) the inputs as they were before the command gives, also if the output is one of the inputs.", "quantifier": "every content of the file system, every argument list", "why_tests_cant": "all aliasings of the paths and all contents", "anchors": ["ccsds-cmd/src/main.rs: Commands::Merge, Commands::Filter"]}
{"id": "C65", "title": "ccsds framing honours its configuration file", "statement": "With --config, the frames that are reported and written are those of the stream with the marker, the length, the randomization and the Reed-Solomon interleave and virtual fill given in the file.", "quantifier": "every configuration, argument list, input stream, codec and schedule", "why_tests_cant": "all configurations and streams", "anchors": ["ccsds-cmd/src/main.rs: Commands::Framing", "ccsds-cmd/src/config.rs: Config", "ccsds-lib/src/framing/pipeline/builder.rs: Pipeline::start"]}
{"id": "C66", "title": "The tools come to an end", "statement": "info, filter, merge, diff and the pipeline come to an end (with a result, an error or a panic) on every input.", "quantifier": "every reader, including ones that fail at every point", "why_tests_cant": "termination on all inputs, including ones that always fail", "anchors": ["ccsds-lib/src/spacepacket/mod.rs: PacketDecoder", "ccsds-lib/src/framing/synchronizer.rs: BlockIter", "ccsds-cmd/src/info.rs", "ccsds-cmd/src/filter.rs", "ccsds-cmd/src/diff.rs", "ccsds-lib/src/spacepacket/merge.rs: Merger::merge"]}
{"id": "C67", "title": "What ccsds merge writes", "statement": "A successful ccsds merge whose output is not an input writes every group of the inputs that has a CDS time inside [from, to) and a selected APID once (up to copies), ascending in time, and for equal times in the order given by --apid-order or --apid-order-name, unlisted APIDs last and ascending.", "quantifier": "every content of the files, every argument list, every iteration order of the hash sets", "why_tests_cant": "all inputs, orders and schedules", "anchors": ["ccsds-cmd/src/main.rs: Commands::Merge", "ccsds-cmd/src/merge.rs: merge, apid_order", "ccsds-lib/src/spacepacket/merge.rs: Merger"]}
{"id": "C68", "title": "Output from the beginning of a stream does not depend on the rest", "statement": "What decode_packets, frame_decoder, packet_decoder and collect_groups have yielded after the first part of a stream is exactly the beginning of what they yield for every continuation of it, and they leave the continuation unread; for collect_groups all but the last group, and for synchronize every block whose last bit has arrived, are final. The whole pipeline is as incremental: all frames but the last of what has arrived so far (and, with Reed-Solomon, all results but the last) are the first of every longer run, whatever later reads do.", "quantifier": "every stream (chunks, interrupted reads and failures included), every cut point, every continuation", "why_tests_cant": "all cut points and all continuations", "anchors": ["ccsds-lib/src/spacepacket/mod.rs: decode_packets, collect_groups", "ccsds-lib/src/framing/pipeline/framing.rs: frame_decoder", "ccsds-lib/src/framing/pipeline/packets.rs: packet_decoder", "ccsds-lib/src/framing/synchronizer.rs: Synchronizer", "ccsds-lib/src/framing/pipeline/builder.rs: Pipeline::start"]}
{"id": "C69", "title": "The Reed-Solomon stage holds no frame back and reads ahead a bounded amount", "statement": "Whenever the input of the Reed-Solomon stage has nothing new, every frame taken from it so far has reached, or can without further input reach, the consumer: if nothing but the input or the consumer can move, all frames taken have been delivered in order. The stage takes at most 3*buffer_size+2 frames more than were delivered, and at most 2*buffer_size+2 jobs wait or run, and never more run than there are worker threads.", "quantifier": "every schedule of the submitter, workers, dispatcher and consumer, every input, buffer size and pool size >= 1", "why_tests_cant": "all interleavings of the threads", "anchors": ["ccsds-lib/src/framing/pipeline/reed_solomon.rs: reed_solomon"]}
{"id": "C70", "title": "What a Python program sees of a file", "statement": "ccsds.decode_packets(path) yields the packets of the file one after the other, unchanged and with their positions, then stops; ccsds.decode_packet_groups(path) yields non-empty groups of one APID whose packets in order are exactly those packets, and for a file of groups as a sender writes them (no segmented group directly followed by one of the same APID) exactly those groups; both panic iff a packet of more than 65536 bytes is met, and then at most one group is lost. ccsds.Packet(buf) raises ValueError iff buf is shorter than the packet it announces, and data / user_data are that packet with / without its header.", "quantifier": "every file content, every way of reading it, every buffer", "why_tests_cant": "all files and all chunkings; the iterators are composed lazily", "anchors": ["ccsds-py/src/lib.rs: py_decode_packets, decode_packet_groups", "ccsds-lib/src/spacepacket/mod.rs: PacketGroupIter, Packet::py_new, Packet::user_data"]}
{"id": "C71", "title": "With the Reed-Solomon code (255,223) every payload survives up to 16 byte errors per code word", "statement": "For the Reed-Solomon code with 32 consecutive roots over the field with 256 elements, in whatever byte representation, different code words differ in at least 33 bytes; for every payload of 223*I bytes (less the virtual fill) there is exactly one block that starts with it and whose I interleaved words are code words; and for every bounded-distance decoder of this code (one exists) ReedSolomon::perform returns the payload from every received block with at most 16 wrong bytes per word.", "quantifier": "every payload, interleave, virtual fill, error pattern, byte representation, decoder", "why_tests_cant": "the payloads and error patterns are not enumerable", "anchors": ["ccsds-lib/src/framing/reed_solomon.rs: DefaultReedSolomon::perform"]}
{"id": "C72", "title": "Dropping the output of the Reed-Solomon stage stops it", "statement": "Once the caller has dropped the iterator returned by reed_solomon (or by the pipeline with Reed-Solomon), the background threads take at most a bounded number of further frames from the input and end. (The code violates this: the failed send of a result is ignored, so the whole input is still read and decoded; what holds is that this neither blocks nor aborts and that all threads end with the input.)", "quantifier": "every schedule of the threads, every input, every moment of dropping, buffer and pool size", "why_tests_cant": "all interleavings and all moments of dropping", "anchors": ["ccsds-lib/src/framing/pipeline/reed_solomon.rs: do_reed_solomon"]}
{"id": "C73", "title": "The end of a Reed-Solomon pipeline is the end of the stream", "statement": "A consumer of a pipeline with Reed-Solomon sees None only if the stream has ended. (The code violates this: a panic of the frame iterator, in a build with overflow checks at the nominal rollover 16777215 -> 0 of a frame counter, ends the submission thread only; the consumer gets the frames before it and then None.)", "quantifier": "every stream, configuration, codec, schedule of the threads and build", "why_tests_cant": "all streams and interleavings", "anchors": ["ccsds-lib/src/framing/pipeline/reed_solomon.rs: do_reed_solomon", "ccsds-lib/src/framing/mod.rs: missing_frames"]}
{"id": "C74", "title": "packet_decoder: the packets of every frame sequence", "statement": "For every sequence of frames (none too short for an MPDU header), the packets the packet decoder yields are, channel by channel, exactly those a receiver gets that: ignores frames until one is intact and points at a packet start; from there reads the payload bytes of consecutive intact loss-free frames as back-to-back packets; starts over at a damaged frame, at a loss, or in the frame after one in which something that is not a version-0 telemetry header became complete. This description leaves no choice, and the decoder follows it for all inputs, however channels are interleaved.", "quantifier": "every frame list, insert zone and trailer length", "why_tests_cant": "all frame sequences with all patterns of damage and loss", "anchors": ["ccsds-lib/src/framing/packets.rs: FramedPacketIter::next"]}
{"id": "C75", "title": "packet_decoder needs bounded memory", "statement": "At every moment of the iteration over frames of at most L bytes, the packet decoder holds, for each virtual channel once, less than one longest packet (65542 bytes) of undelivered partial packet, and less than 65542 + L bytes of complete packets not handed out yet, however long the input.", "quantifier": "every frame list, every point of the iteration", "why_tests_cant": "every length of history", "anchors": ["ccsds-lib/src/framing/packets.rs: FramedPacketIter"]}
{"id": "C76", "title": "Idle data does not become packets", "statement": "An idle frame (first header pointer 0x7fe) between the frames of a channel leaves the packets of that channel as they are, and frames of the idle channel 63 yield no packets. (The code violates both: once a channel is synchronized the fill pointer is not looked at and the idle bytes are parsed as packets; channel 63 is treated like any other. It holds before synchronization and after damaged frames; between packets if the idle bytes cannot be a telemetry header; and for channel 63 if all its pointers are 0x7fe or 0x7ff.)", "quantifier": "every frame list and every position of idle frames", "why_tests_cant": "all placements and contents of idle frames", "anchors": ["ccsds-lib/src/framing/packets.rs: FramedPacketIter::next", "ccsds-lib/src/framing/mod.rs: MPDU::is_fill, VCDUHeader::is_fill"]}
{"id": "C77", "title": "A command that reports success has written everything", "statement": "If the output of `ccsds filter` or `ccsds merge` writes short, is interrupted or fails, at any point, the command either does exactly what it does with an output that never fails, or ends with an error, with a beginning of the right output in the file; no other file is touched. Short and interrupted writes never make it fail.", "quantifier": "every sequence of results of the write system call, every argument, file content and read schedule", "why_tests_cant": "faults can come at every byte of the output", "anchors": ["ccsds-cmd/src/filter.rs: filter (136)", "ccsds-lib/src/spacepacket/merge.rs: Merger::merge (178)", "ccsds-cmd/src/main.rs: Filter, Merge"]}
{"id": "C78", "title": "`ccsds framing` touches only its output and summary files, and succeeds only if they are complete", "statement": "Success means: the arguments, the configuration and the input were usable, the input was decoded to its end, the output file holds all records of that run and the summary file its summary. In every case no other file changes; a failed run leaves in the output a beginning of the records of the frames received, or the old content; with an output that does not fail, an error without a panic means that nothing was changed or all records were written.", "quantifier": "every argument, configuration, file system, input, thread schedule and sequence of write results", "why_tests_cant": "all fault positions and interleavings", "anchors": ["ccsds-cmd/src/main.rs: Framing (415-482), InputReader", "ccsds-cmd/src/frame.rs: frame_aos (61-154)"]}
{"id": "C79", "title": "`ccsds framing` leaves existing files alone, and '-' means standard output", "statement": "`ccsds framing` has no --clobber option, so it changes no file that exists; and `--output -` creates no file (its help says '-' is stdout). (The code violates both: an existing output or summary file is truncated and replaced without asking, and '-' becomes a file of that name. It holds if neither the output nor the summary exists and neither is '-'.)", "quantifier": "every argument and file system", "why_tests_cant": "all combinations of paths and existing files", "anchors": ["ccsds-cmd/src/main.rs: Framing", "ccsds-cmd/src/frame.rs: frame_aos (87-90)"]}
{"id": "C80", "title": "A read error is not hidden", "statement": "If reading an input fails (not merely interrupted) before its end, info, filter, diff, merge and framing do not report success. (The code violates this in all five: errors are dropped with filter_map(Result::ok) or map_while(Result::ok). Untimed filter behaves exactly as if the input ended there; the others go on with what follows, and merge then copies bytes from wrong offsets. decode_packets itself does report the error, after exactly the packets before it.)", "quantifier": "every input, every position and kind of the error, everything that is read after it", "why_tests_cant": "all error positions", "anchors": ["ccsds-cmd/src/filter.rs: filter (80-84), packets_with_times", "ccsds-cmd/src/info.rs: summarize", "ccsds-cmd/src/diff.rs: diff", "ccsds-lib/src/spacepacket/merge.rs: Merger::merge (101)", "ccsds-lib/src/spacepacket/mod.rs: PacketDecoder::next", "ccsds-lib/src/framing/pipeline/builder.rs: Pipeline::start"]}
{"id": "C81", "title": "--include and --exclude mean what their help says", "statement": "`ccsds filter` keeps exactly the packets, and `ccsds framing` selects exactly the frames, that the help texts of --include (numbers, ranges with both ends inclusive) and --exclude (numbers, ranges with exclusive end) describe. (The code violates this: the end of an excluded range is excluded too, and an --include with only values above 65535 counts as not given. These are the only differences.)", "quantifier": "every list of arguments, every packet file", "why_tests_cant": "all argument strings and inputs", "anchors": ["ccsds-cmd/src/main.rs: Commands (139-155, 232-248), parse_number_ranges", "ccsds-cmd/src/filter.rs: filter", "ccsds-cmd/src/frame.rs: frame_aos"]}
{"id": "C82", "title": "Lost and damaged frames cost exactly the packets they touch", "statement": "A sender cuts a stream of packets (possibly starting in the middle of one) into the MPDUs of consecutive frames of a virtual channel. On the way any of the frames are lost without trace or arrive damaged beyond repair, and damaged frames of other channels may seem to belong to this one. packet_decoder then yields exactly those packets all of whose bytes were carried by frames that arrived intact with nothing wrong in between: unaltered, in order, each once; what happens on other channels, or in frames that carry no byte of a packet, makes no difference to it.", "quantifier": "all packet streams and ways to cut them into frames, all patterns of loss and damage, all interleavings of channels, all contents of damaged frames", "why_tests_cant": "The patterns of loss times the alignments of packets to frames are unbounded; tests use a few recorded streams.", "anchors": ["ccsds-lib/src/framing/packets.rs: FramedPacketIter::next", "ccsds-lib/src/framing/pipeline/packets.rs: packet_decoder", "ccsds-lib/src/framing/mod.rs: Frame, MPDU"]}
{"id": "C83", "title": "The whole receive path on a bad link", "statement": "Blocks sent on any number of virtual channels, some lost without trace, some damaged beyond repair, the others received with errors that the Reed-Solomon code can repair, with any bits without a marker between them: under every schedule of the decoding threads the pipeline ends and packet_decoder on its frames yields, for every channel, exactly the packets all of whose bytes arrived in intact or repaired blocks. (Violated: a block damaged so that its version bits are invalid ends the iterator silently, and everything after it is lost.)", "quantifier": "all transmissions over any number of channels, all loss and damage patterns, all noise between blocks without a marker, all read sizes, all thread schedules", "why_tests_cant": "Ranges over all bit streams, damage patterns and thread schedules.", "anchors": ["ccsds-lib/src/framing/pipeline/builder.rs: Pipeline::start", "ccsds-lib/src/framing/pipeline/framing.rs: frame_decoder", "ccsds-lib/src/framing/pipeline/reed_solomon.rs", "ccsds-lib/src/framing/synchronizer.rs", "ccsds-lib/src/framing/packets.rs"]}
{"id": "C84", "title": "The text report of ccsds framing can be read back", "statement": "From the text `ccsds framing` prints, somebody who knows only the labels, the headings and the column widths (4 and 12) recovers every total and, for every virtual channel, its VCID and every count, provided the counts have at most 12 digits. So different summaries never print alike. (Beyond 12 digits columns run together and rows can be ambiguous.)", "quantifier": "all summaries: any number of channels, any counts below 10^12", "why_tests_cant": "Ranges over all counts and numbers of channels; no test looks at the text at all.", "anchors": ["ccsds-cmd/src/frame.rs: TEXT_TEMPLATE, write_text_summary"]}
{"id": "C85", "title": "The text report of ccsds info shows the file name and the numbers", "statement": "From the text `ccsds info --format text` prints, the file name, the counts of any size, the times and the duration of the file, the list of APIDs, and each APID's counts and times can be read back. (Violated for the file name: the template engine HTML-escapes it, a&b.dat is shown as a&amp;b.dat. Everything else can be read, and the name when it has no such character.)", "quantifier": "all summaries and file names on one line, all renderings of times in at most 33 characters", "why_tests_cant": "Ranges over all counts, times, APID lists and file names.", "anchors": ["ccsds-cmd/src/info.rs: TEXT_TEMPLATE, render_text"]}
{"id": "C86", "title": "--from, --to and --apids of ccsds merge mean what their help says", "statement": "A successful ccsds merge whose output is not an input writes exactly the groups with a time that the help texts leave: not before --from, not after --to, with an APID of --apids (all, if it is not given). (Violated: a group with exactly the time of --to is dropped although it is not after it. That is the only difference.)", "quantifier": "every content of the files, every argument list in whole microseconds, every iteration order of the hash sets", "why_tests_cant": "all inputs, argument values and schedules", "anchors": ["ccsds-cmd/src/main.rs: Commands::Merge (94-105)", "ccsds-cmd/src/merge.rs: merge", "ccsds-lib/src/spacepacket/merge.rs: Merger::merge"]}
{"id": "C87", "title": "With --config the associated flags of ccsds framing are ignored", "statement": "Two invocations of ccsds framing with the same --config that differ only in flags the file has entries for (--length, --pn, --rs, --rs-virtualfill) do the same, as the help of --config says; and without Reed-Solomon the flags documented as 'Ignored unless --rs' have no effect. (The code violates the first part: when the file has no rs entry, --rs and --rs-virtualfill from the command line stay in force.)", "quantifier": "all command lines, configuration files, input readers, codecs, schedules and outcomes of the command", "why_tests_cant": "It compares two runs for every pair of command lines, every configuration and every input; a test compares a few.", "anchors": ["ccsds-cmd/src/main.rs:186-250 (Framing args)", "ccsds-cmd/src/main.rs:447-476", "ccsds-cmd/src/frame.rs: frame_aos", "ccsds-cmd/src/config.rs: Config"]}
{"id": "C88", "title": "Read errors do not corrupt the synchronized blocks", "statement": "Whatever the reads of the underlying reader do - return few bytes, be interrupted, fail with any error and later go on, report the end of the file early - every Ok block that synchronize hands out has the configured length and consists of consecutive bits of the bytes delivered (zeros are added only where a read reported the end of the file), blocks come in stream order without overlap, each block directly follows an occurrence of the marker, and up to the first Err item the blocks are those of the undisturbed stream. (The code violates the marker part: when the read of a block that does not start at a byte boundary fails, a byte from before the failure stays cached, is joined with what follows, and can make up a marker that is not in the stream.)", "quantifier": "all readers (any script of deliveries, errors and ends of file), all non-empty markers, all block lengths, any number of calls of next", "why_tests_cant": "The places and kinds of read failures, the alignments and the stream contents combine without bound; a test fixes one script.", "anchors": ["ccsds-lib/src/framing/synchronizer.rs: Synchronizer::scan, Synchronizer::block, BlockIter::next", "ccsds-lib/src/framing/bytes.rs: Bytes::next, Bytes::fill", "ccsds-lib/src/framing/pipeline/synchronize.rs: synchronize"]}
{"id": "C89", "title": "JSON reports can be read back", "statement": "The JSON report that `ccsds framing --summary FILE` writes, and the one `ccsds info --format json` prints, is a well-formed JSON text from which every counter (of any size, for any number of channels or APIDs), every time and duration, and the file name with whatever characters it has, are read back exactly, by name. After a successful `ccsds framing` the file holds the report of the frames decoded in that run; however the command ends, the file is as it was, or holds a complete report, or is not readable as JSON: a report cut short is never taken for a complete one.", "quantifier": "all summaries (any counters, channels, APIDs, file names, texts of times), all runs of the command with any writer behaviour, all prefixes of a report", "why_tests_cant": "counters, channel sets, file names and the point where a write fails are unbounded; a test covers a few reports", "anchors": ["ccsds-cmd/src/frame.rs: render_json_summary, Info, Summary", "ccsds-cmd/src/info.rs: info, Info, Summary", "ccsds-cmd/src/main.rs: Commands::Framing"]}
{"id": "C90", "title": "A reporting command that succeeds has printed its report", "statement": "If `ccsds info` succeeds, or `ccsds diff` ends without a panic after comparing two files, the whole report (every line of text, every brace of JSON) has reached standard output, however standard output took it: in pieces, with interruptions, or up to a full disk or a closed pipe; and `diff` fails exactly if it printed a line. What has come out is in every case a beginning of the report. (The code violates this for `info --format json`: no line end follows the final brace, so it stays in the buffer of standard output until the program ends, where a failed write is ignored: the command succeeds although the report, cut short, is no JSON.)", "quantifier": "all packet files, all reports, all divisions of the report into writes, all sequences of results of the operating system's write", "why_tests_cant": "a test writes to a healthy output; what is lost depends on where in the report the output fails, and on what is buffered then", "anchors": ["ccsds-cmd/src/info.rs: info", "ccsds-cmd/src/diff.rs: diff", "ccsds-cmd/src/main.rs: main"]}
{"id": "C91", "title": "The report of `ccsds diff` can be read back", "statement": "For two packet files, what `ccsds diff` has printed when it ends without a panic, read by its columns, labels and headings, gives back the names of the files (if they have no line ends); for every packet identity (APID, sequence id, CRC) as many lines on the left as the left file has it more often than the right, and conversely (but for the one line C54 tells of); and with `--verbose` exactly the APIDs whose packet counts differ, ascending, with both counts and their difference (files of fewer than 2^31 packets). The status is success exactly if no packet is listed. On an output that takes what it is given it does end so.", "quantifier": "all pairs of packet files with at least one packet, all names without line ends, all sequences of results of the operating system's write", "why_tests_cant": "packets, their number and the widths of what is printed are unbounded; a test compares a few files", "anchors": ["ccsds-cmd/src/diff.rs: diff", "ccsds-cmd/src/main.rs: Commands::Diff"]}
{"id": "C92", "title": "Filtering in steps", "statement": "For a packet file: `ccsds filter --include L` and `--exclude L` split it (every packet goes to exactly one of the two outputs, in input order); `--before T` and `--after T` split its groups that have a time (before 2100, see C53); filtering the output of a filter by APID writes exactly the packets that pass both; and `--include I --exclude E` writes what `--include I` and then `--exclude E` on its output write, in either order of the two steps.", "quantifier": "all packet files (all packet sequences, delivered in all chunkings), all APID lists and times", "why_tests_cant": "files, lists of APIDs and times are unbounded; the claim relates several runs", "anchors": ["ccsds-cmd/src/filter.rs: filter", "ccsds-cmd/src/main.rs: Commands::Filter"]}
{"id": "C93", "title": "Selecting APIDs before or while merging is the same", "statement": "Filtering each input with `ccsds filter --include/--exclude` and merging the outputs writes the same file as merging the inputs with `--apids` for the same APIDs, when the result of the merge is determined (see C25).", "quantifier": "all sets of packet files, all APID lists, all orders and time ranges of the merge", "why_tests_cant": "the claim is about all inputs and relates different command sequences", "anchors": ["ccsds-cmd/src/filter.rs: filter", "ccsds-lib/src/spacepacket/merge.rs: Merger::merge", "ccsds-lib/src/spacepacket/mod.rs: collect_groups"]}
{"id": "C94", "title": "Merging again changes nothing", "statement": "Merging the output of a merge again with the same options (order, APIDs, time range) does not fail and writes the same bytes, whatever the hash iteration orders of the two runs, when different groups of the inputs differ in time or in order value.", "quantifier": "all sets of packet files, all merge options, all hash iteration orders of both runs, all chunkings of the files", "why_tests_cant": "files and options are unbounded, hash iteration order is arbitrary, and the claim relates two runs", "anchors": ["ccsds-lib/src/spacepacket/merge.rs: Merger::merge", "ccsds-lib/src/spacepacket/mod.rs: collect_groups", "ccsds-cmd/src/main.rs: Commands::Merge"]}
{"id": "C95", "title": "Merging in steps", "statement": "Merging some of the files first, and then the result with the other files, writes the same bytes as merging all files at once with the same options, when the result is determined (different groups differ in time or order value, and copies of a group are equal).", "quantifier": "all sets of packet files and all ways to split them in two, all merge options, all hash iteration orders", "why_tests_cant": "files, splits and options are unbounded and the claim relates three runs", "anchors": ["ccsds-lib/src/spacepacket/merge.rs: Merger::merge", "ccsds-lib/src/spacepacket/mod.rs: collect_groups"]}
{"id": "C96", "title": "Merging by time ranges", "statement": "For files and options whose merge is determined (see C25): the output of a merge up to a time M (`--to M`, `Merger::with_to`) followed by the output of a merge from M on (`--from M`, `with_from`) is the output of the merge without M, for every M in its range: nothing at the boundary is lost, doubled or moved. In general the two parts together hold one group for every identity that the whole merge writes, sorted in the same way.", "quantifier": "all sets of packet files, all merge options, all times M within the range, all hash iteration orders of the three runs", "why_tests_cant": "files and times are unbounded, and the claim relates three runs with arbitrary hash orders", "anchors": ["ccsds-lib/src/spacepacket/merge.rs: Merger::merge", "ccsds-lib/src/spacepacket/mod.rs: collect_groups, decode_packets", "ccsds-cmd/src/main.rs: Commands::Merge"]}
{"id": "C97", "title": "Selecting APIDs while or after merging is the same", "statement": "`ccsds filter --include/--exclude` on the output of a merge writes exactly the bytes that the merge with `--apids` for the same APIDs writes, for all files, when that merge is determined (see C25).", "quantifier": "all sets of packet files, all APID lists, all merge options, all hash iteration orders, all chunkings", "why_tests_cant": "files and lists are unbounded and the claim relates different command sequences", "anchors": ["ccsds-lib/src/spacepacket/merge.rs: Merger::merge", "ccsds-lib/src/spacepacket/mod.rs: collect_groups, decode_packets", "ccsds-cmd/src/filter.rs: filter"]}
{"id": "C98", "title": "Files one after the other", "statement": "Of a file of whole packets followed by the bytes of a second file, decode_packets yields the packets of the first and then those of the second, with offsets as they stand in the joint file; filtering by APID writes what filtering each writes, one after the other; info reports the sum of the packet counts (in all and per APID), the sum of the missing counts plus, per APID, the gap between the two files, and the earliest and latest time of both. If the first file ends within a packet, its last bytes and the second file are read as one stream: the packets of the second file are not resynchronized.", "quantifier": "all pairs of packet files, all readers that deliver them in any chunks, all APID lists", "why_tests_cant": "files and chunkings are unbounded and the claim relates three runs", "anchors": ["ccsds-lib/src/spacepacket/mod.rs: decode_packets", "ccsds-cmd/src/filter.rs: filter", "ccsds-cmd/src/info.rs: info"]}
{"id": "C99", "title": "Merging files that were put one after the other", "statement": "Merging a file that holds two files one after the other (the first being whole packets) writes the same bytes as merging the two files, when that merge is determined. (The code violates this: a segmented group at the end of the first file and a group of the same APID at the beginning of the second are read as one group, and the second is written with the time of the first.)", "quantifier": "all sets of packet files, all merge options, all hash iteration orders", "why_tests_cant": "files are unbounded and the claim relates two runs", "anchors": ["ccsds-lib/src/spacepacket/merge.rs: Merger::merge", "ccsds-lib/src/spacepacket/mod.rs: collect_groups, decode_packets"]}
{"id": "C100", "title": "How the input is cut into reads, or buffered, does not matter, even when reads fail", "statement": "Two readers that deliver the same bytes, with the same failures and empty reads between the same bytes, give the same packets and errors from decode_packets, the same blocks and errors from synchronize, the same frames from the frame-decoding pipeline (with and without Reed-Solomon, for every schedule), and the same result of ccsds info, filter, diff, merge and framing, however many bytes each single read offers. Reading through a BufReader of any capacity gives the bytes, ends and failures of the reader behind it, byte for byte, so buffering changes none of these results either.", "quantifier": "every reader script (any bytes, any chunking, any failures and empty reads anywhere), every marker and block length, every pipeline configuration, codec and schedule, every command argument, every buffer capacity and read length", "why_tests_cant": "There are exponentially many ways to cut a stream into reads and to place failures between them; a test file is always read in the same few pieces.", "anchors": ["ccsds-lib/src/spacepacket/mod.rs: decode_packets", "ccsds-lib/src/framing/synchronizer.rs: synchronize; framing/bytes.rs: Bytes", "ccsds-lib/src/framing/mod.rs", "ccsds-lib/src/spacepacket/merge.rs:93-97 BufReader", "ccsds-cmd/src/main.rs:40-75 InputReader"]}
{"id": "C101", "title": "A command that is killed leaves a beginning of its output", "statement": "Wherever `ccsds filter`, `merge` or `framing` is killed - before, while or after it writes, also in the middle of a write - no file has changed but the output and, for framing, the summary. The output is as it was, or holds the beginning of what a run that succeeds leaves there (for merge also: is empty), and every such beginning is possible. The packets that can be read from the output of a killed filter or merge are the first packets of the full output. The summary file of framing is touched only when all records are in the output.", "quantifier": "every file system, every set of arguments, every input and way of reading it, every behaviour of the output, every moment at which the process is killed (also of runs that would never end), every schedule of the Reed-Solomon stage", "why_tests_cant": "The kill can come at any byte and between any two steps; a test kills at a few places.", "anchors": ["ccsds-cmd/src/main.rs:339-482", "ccsds-cmd/src/filter.rs: filter", "ccsds-cmd/src/frame.rs: frame_aos", "ccsds-lib/src/spacepacket/merge.rs: Merger::merge", "ccsds-lib/src/spacepacket/mod.rs: decode_packets"]}
{"id": "C102", "title": "The end of the input is final", "statement": "When the input reports its end, no command looks at what it would deliver afterwards (a terminal after Ctrl-D, a file that has grown, a reader that goes on): a loop over decode_packets, ccsds info, and filter without time bounds give what they give for the input that stays at its end. The code violates this for filter with time bounds and for merge: exactly when the last group before the end did not start with a standalone packet, that group is handed out, and the input is then read again from where it stands, with a new grouping. For inputs that end once they do what their specification says of the list of all packets.", "quantifier": "every reader script: any bytes, chunking, failures, ends of file followed by more data; every packet, group, time and APID in it", "why_tests_cant": "Test files stay at their end; which histories of reads make a difference is a question about all scripts.", "anchors": ["ccsds-lib/src/spacepacket/mod.rs:507-577 PacketGroupIter::next", "ccsds-lib/src/spacepacket/mod.rs: decode_packets", "ccsds-cmd/src/filter.rs:16-56 packets_with_times", "ccsds-lib/src/spacepacket/merge.rs:100-159", "ccsds-cmd/src/info.rs"]}
{"id": "C103", "title": "Counting markers does not get in the way of finding them", "statement": "The synchronizer counts, per bit alignment, the markers it has found. This has no effect on the blocks: in a build without overflow checks never, in any build not as long as there are fewer than 2^31 items. The code violates the unrestricted statement: in a build with overflow checks, a stream with 2^31 markers at one alignment makes synchronize panic before it has handed out their blocks (2^31 CADUs of 1024 bytes are 2 TiB).", "quantifier": "every reader, marker, block length, build, number of items", "why_tests_cant": "The counter overflows after two thousand million markers; no test reads that far, and a panic-freedom claim that ignores it would be false.", "anchors": ["ccsds-lib/src/framing/synchronizer.rs:83 pattern_hits", "ccsds-lib/src/framing/synchronizer.rs:172-175 Synchronizer::scan", "ccsds-lib/src/framing/synchronizer.rs: BlockIter::next"]}
{"id": "C104", "title": "A block or frame is handed out as soon as its last bit has arrived", "statement": "When the last bit of the block behind the k-th marker has arrived, k+1 calls of next of synchronize return the blocks behind the first k+1 markers, and these calls read nothing beyond the byte that holds that last bit: what the reader would do later (more data, blocking, an error) does not matter. The same for the frames of the pipeline without Reed-Solomon: when no block is cut off at the end of what has arrived, all frames of it are handed out without reading on.", "quantifier": "every byte string that has arrived, its division into reads, every later behaviour of the reader, marker, block length, k, configuration without Reed-Solomon", "why_tests_cant": "Reading one byte too far shows up only on a live input that blocks exactly there, for some alignment of the block.", "anchors": ["ccsds-lib/src/framing/synchronizer.rs: Synchronizer::scan, Synchronizer::block, BlockIter::next", "ccsds-lib/src/framing/bytes.rs: Bytes::next, Bytes::fill, Bytes::push", "ccsds-lib/src/framing/pipeline/builder.rs:38-55 start"]}
{"id": "C105", "title": "synchronize keeps a bounded number of bytes", "statement": "Whatever the reader does, between two calls of next of synchronize at most marker length + 1 bytes that were read before are kept, however long the stream is and wherever its markers are.", "quantifier": "every reader (failing and interrupted reads included), marker, block length, number of calls", "why_tests_cant": "A cache that grows by one byte per rejected marker is invisible in short runs.", "anchors": ["ccsds-lib/src/framing/synchronizer.rs: Synchronizer::scan, Synchronizer::block", "ccsds-lib/src/framing/bytes.rs: Bytes::push, Bytes::fill"]}
{"id": "C106", "title": "Recordings of CADUs can be decoded one after the other", "statement": "If a recording ends with the end of a block, synchronize on it followed by a second recording yields the blocks of the first and then those of the second, moved by the length of the first, with the same alignments and data (only the first one's distance from the block before it is new). If the headers of the first one's blocks can be decoded, the pipeline yields the frames of both, except that the number of missing frames of the first frame of a virtual channel in the second recording takes the first recording into account (and, by C34, can make decoding panic). framing writes what it writes for the first and then what it writes for the second, and all its counters, in total and per virtual channel, are sums; only more frames can be missing. With and without Reed-Solomon.", "quantifier": "every two byte strings (the second arbitrary), their division into reads, marker, block length, configuration, schedules of the worker threads, build", "why_tests_cant": "The bits around the junction, the alignment of the earlier blocks and the state carried over (counters per channel, cached bytes, bit alignment) are arbitrary.", "anchors": ["ccsds-lib/src/framing/synchronizer.rs: Synchronizer::scan, BlockIter::next", "ccsds-lib/src/framing/pipeline/framing.rs: frame_decoder", "ccsds-lib/src/framing/pipeline/reed_solomon.rs", "ccsds-cmd/src/frame.rs: frame_aos"]}
{"id": "C107", "title": "The order and repetition of merge's inputs do not matter", "statement": "merge given the same input files in another order, or some of them several times, can return, write or fail with exactly what it can for the original list: a file named twice contributes its packets once. This holds for the library's Merger and for the command (exit status and files afterwards).", "quantifier": "every two lists of paths with the same members, file contents and read behaviour (including unreadable and panicking ones), time decoder, order list, time window, APID list, hash iteration order, build", "why_tests_cant": "The inputs are held in a hash map, so the visiting order is not fixed; the sets of outcomes have to agree for every list and every iteration order.", "anchors": ["ccsds-lib/src/spacepacket/merge.rs: Merger::merge", "ccsds-cmd/src/merge.rs: merge"]}
{"id": "C108", "title": "diff is symmetric and does not depend on packet order", "statement": "Exchanging the two files of diff exchanges left and right in every line and in every row of the count table and changes nothing else (same exit, same order of the lines). The result depends on each file only through how often each (APID, sequence id, CRC) occurs, not on the order of the packets in the file.", "quantifier": "every two files and read behaviour (for the order: every two pairs of files with the same multiset of keys), CRC function, with and without counts", "why_tests_cant": "Sorting, the merge loop with its two cached heads and the count table must commute with exchanging sides and permuting packets for all files.", "anchors": ["ccsds-cmd/src/diff.rs: diff"]}
{"id": "C109", "title": "Bit errors in a recording of CADUs stay where they are", "statement": "If bits change only inside blocks, synchronize finds the same blocks at the same offsets and alignments, with the same distances, even if a damaged block now looks like a marker; blocks without errors have the same data. If markers are destroyed too, exactly the blocks of the markers that can still be read come out, unless a marker appears outside of their markers and blocks. If the errors spare the first six bytes of each block, the pipeline yields as many frames, with the same headers and missing counts, and the frames of blocks without errors are unchanged.", "quantifier": "every stream, marker, block length, every set of changed bits, division into reads, with and without derandomization, build", "why_tests_cant": "The errors are arbitrary, in particular they may imitate markers at any of the eight alignments.", "anchors": ["ccsds-lib/src/framing/synchronizer.rs: Synchronizer::scan, block, BlockIter::next", "ccsds-lib/src/framing/pipeline/builder.rs: Pipeline::start", "ccsds-lib/src/framing/pipeline/framing.rs: frame_decoder"]}
{"id": "C110", "title": "Damage behind the primary headers stays in the packets it hits", "statement": "If bytes of a packet file change only behind the primary headers of its packets, decode_packets yields as many packets, with the same headers, offsets and lengths, and ends in the same way; a packet's data only differ where the file differs. filter by APID selects the same packets, each with its damage, and info reports the same counts (total, missing, per APID). collect_groups forms the same groups (same APIDs, same packets but for the damage). If the damage also spares the eight bytes behind the headers (the times), filter with --before or --after selects the same groups. Merging damaged inputs, every group that is not hit keeps its key in the merged file, and its bytes are there unless a damaged group took on the same key.", "quantifier": "every file (also with a rest that is no packet), every set of changed bytes behind the headers, division into reads, APID lists, build", "why_tests_cant": "Files, packets and damage are arbitrary.", "anchors": ["ccsds-lib/src/spacepacket/mod.rs: decode_packets, Packet::read", "ccsds-cmd/src/filter.rs: filter", "ccsds-cmd/src/info.rs: summarize", "ccsds-lib/src/spacepacket/mod.rs: collect_groups", "ccsds-lib/src/spacepacket/merge.rs: Merger::merge"]}
{"id": "C111", "title": "CUC timecodes order like their bytes", "statement": "For time codes of one supported CUC format (1..=4 coarse bytes, 0..=3 fine bytes) whose multiplier is absent or finite and keeps the largest fine field below one second, decode gives TAI instants that are ordered as the byte strings are lexicographically: a smaller byte string never gives a later instant, and, if one unit of the fine field is worth at least a nanosecond, a smaller byte string gives an earlier instant and equal instants come from equal byte strings. Both side conditions are needed: below one nanosecond per unit different byte strings can give the same instant, and where the fine field carries into the seconds the order can be reversed.", "quantifier": "all CUC formats and multipliers with these bounds, all pairs of byte strings of the format's length, both build modes", "why_tests_cant": "Sorting packets by time relies on the order of every pair of time codes; the pairs number up to 2^112 and the multiplier is an arbitrary single-precision number.", "anchors": ["ccsds-lib/src/timecode.rs: decode, decode_cuc, Format::Cuc"]}
{"id": "C112", "title": "Lost or inserted bits cost at most two CADUs", "statement": "If bits are lost from or inserted into a recording of CADUs, in any number and at any place, so that two error-free stretches of CADUs are separated by arbitrary bits, and the second stretch contains the marker nowhere but at the beginning of its CADUs, then synchronize hands out every block of the first stretch, then at most one block for every CADU length begun of the bits between, then every block of the second stretch except perhaps its first one, at whatever bit alignment that stretch has. The first block of the second stretch is handed out too unless a marker among the bits between has its block reach into the second stretch; nothing follows if no marker occurs behind the second stretch. The same holds for the frames of a pipeline as long as the frames made of the bits between have readable headers.", "quantifier": "all markers, block lengths, block contents, all bit strings between and behind the stretches of any length, all ways the reader cuts the stream into reads", "why_tests_cant": "the bits between are arbitrary and of arbitrary length, so is the alignment; a test tries a few slips", "anchors": ["ccsds-lib/src/framing/synchronizer.rs: Synchronizer, BlockIter::next", "ccsds-lib/src/framing/pipeline/builder.rs: Pipeline::start", "ccsds-lib/src/framing/pipeline/framing.rs: frame_decoder"]}
{"id": "C113", "title": "Reed-Solomon with the code of CCSDS 131.0-B itself", "statement": "For the concrete code of the standard (field polynomial x^8+x^7+x^2+x+1, roots alpha^(11*112) .. alpha^(11*143), dual basis bytes): different code words differ in at least 33 bytes, the bytewise exclusive or of code words is a code word, and every word of 255 equal bytes is one; with any bounded-distance decoder of this code ReedSolomon::perform returns every payload from a block with at most 16 wrong bytes per word, reports every block of equal bytes (any byte, any interleave) as Ok, reports the code block of the crate's own tests as Ok for every interleave and as Corrected with the same data when any one byte is changed to anything, and the frame of the documentation example of reed_solomon as Ok.", "quantifier": "every payload, error pattern, byte, interleave, decoder of the code", "why_tests_cant": "the tests try two interleaves, one byte position and one error value; payloads and error patterns are not enumerable", "anchors": ["ccsds-lib/src/framing/reed_solomon.rs: DefaultReedSolomon::perform, FIXTURE_MSG", "ccsds-lib/src/framing/pipeline/reed_solomon.rs: reed_solomon"]}
{"id": "C114", "title": "What a standard transmitter sends is received", "statement": "Let a transmitter follow the standards: packets of any number of virtual channels back to back, cut into MPDU data zones of one size with first header pointers, AOS frames with consecutive counters (no rollover during the transmission), optional insert zone and trailer of any content, Reed-Solomon (255,223) check symbols of the CCSDS code at any interleave with virtual fill, optional pseudo-randomization, sync markers; channels multiplexed in any order with fill frames of any content on channel 63 between. Let at most 16 bytes of every code word arrive wrong, outside the marker and frame header, and let noise of any number of bits that contains no marker come before and after. Then for every way of reading the bytes in pieces and every schedule of the decoding threads, Pipeline with Reed-Solomon, when it ends, has delivered one frame per data unit, never aborts and can always end, and packet_decoder returns for every channel other than 63 exactly the packets whose last byte was sent, in order and byte for byte, all of them if they fill the frames exactly.", "quantifier": "every packet list per channel, transmitter parameters, multiplexing order, fill content, error pattern, noise, reader behaviour, thread schedule, build profile, bounded-distance decoder of the code", "why_tests_cant": "the fixture files are a handful of recorded frames; alignments of packets to frames, multiplexing orders, error patterns and schedules are not enumerable", "anchors": ["ccsds-lib/src/framing/pipeline/builder.rs: Pipeline::start", "ccsds-lib/src/framing/pipeline/packets.rs: packet_decoder", "ccsds-lib/src/framing/synchronizer.rs: Synchronizer", "ccsds-lib/src/framing/pipeline/reed_solomon.rs: reed_solomon"]}
{"id": "C115", "title": "The rollover of a frame counter costs no packets", "statement": "Frame counters have 24 bits and continue with 0 after 16777215. On any link, with any losses, every packet all of whose bytes arrived comes out also if the counter of its channel rolls over while it is sent. (Violated: in a build with overflow checks the output of the pipeline ends silently before the frame with counter 0; without them that frame reports 4294967295 missing frames and every packet that straddles the rollover is dropped, and only these.)", "quantifier": "all transmissions on any number of channels with counters modulo 2^24 and fewer than 2^24 frames per channel, all losses and damage, all streams, readers, schedules, both build profiles", "why_tests_cant": "a rollover takes 16777216 frames of a channel; which packets are lost depends on where the packet boundaries lie", "anchors": ["ccsds-lib/src/framing/mod.rs: missing_frames, VCDUHeader::COUNTER_MAX", "ccsds-lib/src/framing/pipeline/framing.rs: frame_decoder", "ccsds-lib/src/framing/packets.rs: FramedPacketIter", "ccsds-lib/src/framing/pipeline/packets.rs: packet_decoder"]}
{"id": "C116", "title": "A lost frame never goes unnoticed: every packet delivered was sent", "statement": "Whatever frames are lost or damaged on the way, the packets packet_decoder delivers for a channel are a subsequence of the packets sent on it. (Violated: if the frame with counter 16777215 is lost between two frames received, missing_frames reports 0, and a packet comes out that consists of the beginning of one packet and bytes of another; the same happens, without overflow checks, when the frame with counter 0 is lost. These two are the only cases.)", "quantifier": "all transmissions on any number of channels with counters modulo 2^24 and fewer than 2^24 frames per channel, all losses and damage, all schedules, both build profiles", "why_tests_cant": "two counter pairs among 2^48 go wrong, and only with a packet across the gap", "anchors": ["ccsds-lib/src/framing/mod.rs: missing_frames, VCDUHeader::COUNTER_MAX", "ccsds-lib/src/framing/packets.rs: FramedPacketIter"]}
{"id": "C117", "title": "Over a link that loses and spoils frames exactly the untouched packets of a standard transmitter come out", "statement": "A transmitter that follows the standards (C114) sends the packets of any number of virtual channels; every data unit then arrives with errors the code can repair, or with more, or not at all, with noise between and around them, and frame counters may roll over (in builds without overflow checks). With the pipeline configured accordingly and packet_decoder behind it, one frame comes out per data unit received, and for each channel exactly those packets all of whose bytes were in frames received repairably and into which no frame with counter 0 cuts, in order and byte for byte; unless exactly the frame before or after a rollover is missing between two received ones (C116).", "quantifier": "all transmitter parameters, all packets on all channels, all multiplexing orders, all fates of the data units, all noise without a marker, all reader chunkings, all thread schedules, all initial counters", "why_tests_cant": "the packets that must and must not come out depend on where every packet lies in the stream and on every combination of losses", "anchors": ["ccsds-lib/src/framing/pipeline/builder.rs: Pipeline::start", "ccsds-lib/src/framing/mod.rs: missing_frames", "ccsds-lib/src/framing/pipeline/framing.rs: frame_decoder", "ccsds-lib/src/framing/packets.rs: FramedPacketIter", "ccsds-lib/src/framing/pipeline/reed_solomon.rs: reed_solomon", "ccsds-lib/src/framing/synchronizer.rs: Synchronizer"]}
{"id": "C118", "title": "Cutting a recording in two costs at most one packet per channel", "statement": "A recording of a transmission (C117) is cut between two data units and the halves are decoded separately, each with its own run of the pipeline and the packet decoder. For every virtual channel the packets of the whole recording are the packets of the first half, then at most one packet, then the packets of the second half; the packet in between is exactly the one, if any, whose bytes were in received frames on both sides of the cut.", "quantifier": "all transmissions, all fates of the data units, all cuts, all thread schedules and reader chunkings of the three runs", "why_tests_cant": "which packet is lost depends on where the cut falls in the stream of every channel and on what the decoder remembers there", "anchors": ["ccsds-lib/src/framing/pipeline/builder.rs: Pipeline::start", "ccsds-lib/src/framing/packets.rs: FramedPacketIter", "ccsds-lib/src/framing/pipeline/framing.rs: frame_decoder", "ccsds-lib/src/framing/synchronizer.rs: Synchronizer"]}
{"id": "C119", "title": "A better reception never gives fewer packets", "statement": "Two recordings of the same transmission (C117): if every data unit that arrived repairably in the first also arrived repairably in the second, then for every virtual channel the packets that come out of the first are a subsequence of those that come out of the second.", "quantifier": "all transmissions, all pairs of receptions, all thread schedules and reader chunkings", "why_tests_cant": "monotonicity relates all pairs of receptions; the decoder's state after a loss could make a later packet vanish because of an earlier good frame", "anchors": ["ccsds-lib/src/framing/pipeline/builder.rs: Pipeline::start", "ccsds-lib/src/framing/packets.rs: FramedPacketIter", "ccsds-lib/src/framing/mod.rs: missing_frames", "ccsds-lib/src/framing/pipeline/reed_solomon.rs: reed_solomon"]}
{"id": "C120", "title": "Merging the recordings of several stations gives every packet that some station received whole", "statement": "Any number of stations record the same transmission (C117), each with its own losses, errors and noise, decode it and write the packets of one virtual channel to a file. If the packets sent are unsegmented, of at most 65536 bytes, and carry strictly increasing times the merger can decode (packets of equal time in the merger's APID order), then merging the files succeeds and writes exactly the packets sent that arrived whole at at least one station (and that no frame with counter 0 cuts), each once, in the order sent. More generally, files holding any packets of such a sequence in any order and multiplicity merge to the subsequence of the packets that are in at least one file.", "quantifier": "all transmissions, all numbers of stations, all fates of every data unit at every station, all thread schedules, hash iteration orders and reader chunkings", "why_tests_cant": "the union must be right for every combination of losses at every station; the merge goes through hash sets of unspecified order", "anchors": ["ccsds-lib/src/spacepacket/merge.rs: Merger::merge", "ccsds-lib/src/spacepacket/mod.rs: collect_groups", "ccsds-lib/src/framing/packets.rs: FramedPacketIter", "ccsds-lib/src/framing/pipeline/builder.rs: Pipeline::start"]}
{"id": "C121", "title": "What info reports as missing is what was lost on the link", "statement": "The packets of one virtual channel that come out of a recording of a transmission with lost data units, byte errors and noise (C117) are written to a file, and the info command is run on it. It always succeeds and counts as many packets as came out. For every APID whose packets the sender numbered consecutively (modulo 16384), the APID is listed exactly when a packet of it arrived whole; its packet count is the number of its packets that arrived whole (and that no frame with counter 0 cuts); and, unless 16384 or more of its packets were lost in a row, its missing count is exactly the number of its packets, between the first and the last received, that were lost.", "quantifier": "all transmissions, all fates of every data unit, all channels and APIDs, all thread schedules and reader chunkings", "why_tests_cant": "the relation between what the link lost and what the report says goes through synchronization, error correction, reassembly, file decoding and modular gap counting; it must hold for every loss pattern", "anchors": ["ccsds-cmd/src/info.rs: summarize", "ccsds-lib/src/spacepacket/summary.rs: Summary::add", "ccsds-lib/src/spacepacket/mod.rs: missing_packets", "ccsds-lib/src/framing/packets.rs: FramedPacketIter"]}
{"id": "C122", "title": "Lost TM transfer frames are counted per virtual channel", "statement": "TM transfer frames (CCSDS 132.0-B, version bits 00) carry two 8-bit counters, one over all frames of the spacecraft and one over the frames of the virtual channel. In a stream of TM frames, every frame but the first of its virtual channel reports as missing the number of frames of the channel lost since the previous one, that is the gap of the virtual channel frame count modulo 256. (VIOLATED: both counters are read as one 16-bit number, so a complete stream of a spacecraft with one channel reports 256 missing frames before almost every frame; the exact behaviour is proved.)", "quantifier": "all streams of TM frames, all pairs of successive frames of a channel, with any loss between them, builds with and without overflow checks", "why_tests_cant": "the report depends on every combination of the four counter values of two frames and on all frames between them; tests only look at AOS frames", "anchors": ["ccsds-lib/src/framing/mod.rs: VCDUHeader::decode_v1", "ccsds-lib/src/framing/mod.rs: missing_frames", "ccsds-lib/src/framing/pipeline/framing.rs: frame_decoder"]}
{"id": "C123", "title": "Groups of a file that was filtered, merged or concatenated", "statement": "The packet groups read from a file written by filter (with APID lists, or with time bounds), by merge, or by putting a file of whole packets before another one, are exactly the groups that were written, in that order, except that a group that does not begin with an unsegmented packet takes in the groups directly after it that have its APID. No packet is lost, added, changed or moved. Nothing is joined exactly if every such group is followed by a group of another APID. Filtering by time a second time with the same bounds changes nothing, even where groups were joined.", "quantifier": "all packet files, all APID lists and time bounds, all merges, all reader chunkings and hash iteration orders", "why_tests_cant": "the claim relates the groups of input and output files for all files and option values, and what is joined depends on which groups become neighbours", "anchors": ["ccsds-lib/src/spacepacket/mod.rs: PacketGroupIter::next, collect_groups", "ccsds-cmd/src/filter.rs: filter", "ccsds-lib/src/spacepacket/merge.rs: Merger::merge"]}
{"id": "C124", "title": "info and diff agree with filter", "statement": "When `filter` with --include/--exclude has written a file, `info` on that file lists exactly the APIDs of the input that pass, each with the same packet count, missing count and first and last time as before, and its totals are the sums of those rows. `diff` of the input and that file lists no packet as being only in the filtered file and lists exactly the dropped packets as being only in the input, except that one may be left out; it says that the files are the same only when nothing was dropped or when the only dropped packet has the greatest (APID, sequence, checksum) key.", "quantifier": "every file, every include/exclude list, every build, every way the bytes are delivered, every checksum function", "why_tests_cant": "the claim compares three programs on every packet stream and every choice of APIDs", "anchors": ["ccsds-cmd/src/filter.rs: filter", "ccsds-cmd/src/info.rs: info, summarize", "ccsds-cmd/src/diff.rs: diff"]}
{"id": "C125", "title": "Splitting a file by APID and merging the parts", "statement": "If a file is split with `filter --include L` and `filter --exclude L` and the two parts are given to `merge` in its place, together with any other files and with any time bounds, order and APID selection, `merge` writes exactly the bytes it writes for the unsplit file, provided the result is determined (groups with the same key have the same bytes, and groups with equal time and rank have the same key) and the filters bring no two segmented groups of one APID together (C123 says what happens then).", "quantifier": "every list of files, every APID list, every merge option, every iteration order of the hash tables", "why_tests_cant": "ranges over all files, splits, options and hash orders", "anchors": ["ccsds-cmd/src/filter.rs: filter", "ccsds-cmd/src/merge.rs: merge", "ccsds-lib/src/spacepacket/merge.rs: Merger::merge"]}
{"id": "C126", "title": "Merging when the inputs cannot be read again", "statement": "`merge` reads each input to find the groups and then seeks back to copy each of them. Whatever the seeks, reads and writes of the copying do (fail, return short, are interrupted), as long as reads return bytes of the file: if merge succeeds, it has written exactly the output of a merge without failures; otherwise it fails with the beginning of that output written, whole groups unless a write failed; other files are untouched. If nothing fails the results are exactly those of merge. If no input can be sought (pipes), nothing is written and merge succeeds only if there was nothing to write.", "quantifier": "all input files, merge options and hash iteration orders; all results of every seek, read and write call of the copying loop", "why_tests_cant": "ranges over all failure points of all system calls", "anchors": ["ccsds-lib/src/spacepacket/merge.rs: Merger::merge", "ccsds-cmd/src/merge.rs: merge"]}
{"id": "C127", "title": "`ccsds framing` recovers exactly the frames that were sent and received intact or repairably", "statement": "A spacecraft sends space packets as standard AOS frames (Reed-Solomon coded, interleaved, optionally randomized, several virtual channels and fill). Each data unit arrives with repairable errors, with more errors, or not at all, with marker-free noise around. `ccsds framing` run on the recording with a matching command line (frame length, interleaving, virtual fill) ends, and its output file is exactly the concatenation, in order, of the frames as they were sent of all data units on a selected channel that were received repairably (without correction: intact) (fill only with --keep-fill, then as received). Its summary counts, in total and per channel, the data units received, intact, corrected and not usable, and for each channel whose counter does not roll over the number of data units lost between the first and the last received.", "quantifier": "all transmitters (sizes, depth, randomization, counters), packet lists, multiplexings, fates of data units, noise, read schedules, thread schedules, build profiles, command-line selections, and every bounded-distance decoder of the CCSDS code", "why_tests_cant": "ranges over all transmissions, error patterns and schedules; a test sees one recording", "anchors": ["ccsds-cmd/src/frame.rs: frame_aos", "ccsds-lib/src/framing/pipeline/builder.rs: Pipeline", "ccsds-lib/src/framing/pipeline/reed_solomon.rs: reed_solomon", "ccsds-lib/src/framing/mod.rs: missing_frames"]}
{"id": "C128", "title": "A lossless recording shows no missing frames", "statement": "If every data unit of a transmission is received, the summary of `ccsds framing` reports 0 missing frames for every channel. (Violated: in a build without overflow checks a channel whose 24-bit counter rolls over once is reported with exactly 4294967295 missing frames although nothing is missing; channels without a rollover are reported correctly. With losses, a rollover that falls into a gap makes the number one too small.)", "quantifier": "all transmitters, packet lists, multiplexings, repairable or unrepairable damage, noise, read schedules, thread schedules", "why_tests_cant": "ranges over all transmissions; the rollover happens once in 16777216 frames of a channel", "anchors": ["ccsds-cmd/src/frame.rs: frame_aos", "ccsds-lib/src/framing/mod.rs: missing_frames, COUNTER_MAX"]}
{"id": "C129", "title": "`ccsds framing` without Reed-Solomon writes every received block as it is", "statement": "For the recording of a transmission over a bad link (as in C127), `ccsds framing` run without --rs and with the length of frame plus check symbols ends; its output file is the concatenation, in order, of the derandomized blocks, check symbols included, of all data units received on a selected channel, damaged or not; its summary counts all of them as not checked, their bytes, and, for each channel whose counter does not roll over, the number of data units lost between the first and the last received.", "quantifier": "all transmitters, packet lists, multiplexings, fates of data units, noise, read schedules, build profiles and command-line selections", "why_tests_cant": "ranges over all transmissions and error patterns; a test sees one recording", "anchors": ["ccsds-cmd/src/frame.rs: frame_aos", "ccsds-lib/src/framing/pipeline/builder.rs: Pipeline", "ccsds-lib/src/framing/mod.rs: missing_frames"]}
{"id": "C130", "title": "Options take effect as last set, and only those that should change the output do", "statement": "However the pipeline and its Reed-Solomon options are built (any calls of the with_* functions of Pipeline, RsOpts and DefaultReedSolomon, in any order, with repetitions), each option has the value last set or its documented default. Two pipelines with the same block length, the same derandomization, interleave, virtual fill and correction hand out the same frames on the same input, whatever the number of threads, the buffer size, the detection switch and the order of the calls. DefaultReedSolomon keeps or removes the check symbols, and corrects or only detects, as last set. `ccsds framing` builds its pipeline from its arguments by these calls.", "quantifier": "all sequences of option calls, all readers and inputs, all thread schedules, every bounded-distance decoder", "why_tests_cant": "all call sequences, inputs and schedules; tests use one or two configurations", "anchors": ["ccsds-lib/src/framing/pipeline/reed_solomon.rs: RsOpts", "ccsds-lib/src/framing/pipeline/builder.rs: Pipeline", "ccsds-lib/src/framing/reed_solomon.rs: DefaultReedSolomon", "ccsds-cmd/src/frame.rs: frame_aos"]}
{"id": "C131", "title": "Splitting a recording of frames by virtual channel", "statement": "Run `ccsds framing` three times on the same input with the same options (threads and buffer size may differ): without channel selection, with --include S and with --exclude S, S not empty. Then the report with --include S consists of exactly the lines of the full report for the channels in S, the one with --exclude S of exactly the other lines, numbers included (also the missing frames); every total of the full report is the sum of the two; and the records of the full output are those of the two outputs, each record in exactly one of them, in their order. Without Reed-Solomon the records written with --include S are exactly those of the full output whose header names a channel of S. The runs with selection finish whenever the full run does. A channel that is both included and excluded is excluded; if no included channel remains, nothing is reported or written.", "quantifier": "all inputs, all ways the input arrives, options, channel lists, thread counts and schedules of the Reed-Solomon stage", "why_tests_cant": "Relates three runs over the same unbounded input; a test shows it for one recording and one schedule.", "anchors": ["ccsds-cmd/src/frame.rs:49-154 frame_aos", "ccsds-lib/src/framing/pipeline/builder.rs start"]}
{"id": "C132", "title": "The output file of `ccsds framing` still holds the packets", "statement": "A spacecraft sends space packets as AOS frames, and `ccsds framing` runs on the recording of a bad link with an output file, as in C127. Read back in records of the frame size, the file decodes without Reed-Solomon and without markers: frame_decoder gives one frame for each record and packet_decoder on these frames gives, of each channel that was selected, exactly those packets all bytes of which were sent in data units the command could use, unaltered, in order, each once, and nothing of other channels; a data unit that was damaged beyond repair now looks like a lost one. The same holds for any selection of sent frames put on a file, with fill frames of any content between them.", "quantifier": "all transmitters, packets, multiplexings, fates of data units, noise, read and thread schedules, build profiles, command lines that fit the transmitter, and all ways to cut the file into blocks of the frame size", "why_tests_cant": "The claim composes two programs over all transmissions and all loss patterns; a test checks one recording.", "anchors": ["ccsds-cmd/src/frame.rs: frame_aos", "ccsds-lib/src/framing/pipeline/frames.rs: frame_decoder", "ccsds-lib/src/framing/packets.rs: FramedPacketIter::next"]}
{"id": "C133", "title": "Finding the sync markers takes work proportional to the input", "statement": "While synchronize (and with it every framing pipeline) looks for markers, the number of byte comparisons it makes from the start of the input to its end is at most (m+1)(9n+e+9), with n the bytes of the input, e the results of read calls and m the length of the marker; with the standard marker and no read errors at most 50n+45. Whatever the reader does, k items cost at most (m+1)(8n+8+k) comparisons. No input makes the search quadratic, however often it almost contains the marker.", "quantifier": "all readers (contents, cuts, errors, also endless failure), all markers, all block lengths, every number of calls", "why_tests_cant": "A test measures some inputs; a bound on the work must hold for the worst input (near misses at every bit offset, push-backs after every mismatch).", "anchors": ["ccsds-lib/src/framing/synchronizer.rs:Synchronizer::scan", "ccsds-lib/src/framing/synchronizer.rs:BlockIter::next", "ccsds-lib/src/framing/bytes.rs:Bytes::push"]}
{"id": "C134", "title": "No output is larger than its input", "statement": "Nothing the library or the commands put out is larger than what they were given. Synchronizing a stream of N bytes for blocks of L bytes after a marker of M bytes gives n items with n\u00b7(M+L) \u2264 N+L; the same holds for the number of frames of the pipeline (M = 4), with and without Reed-Solomon, and `framing` writes at most N bytes and one record. At every moment of packet extraction the packets handed out, the packets waiting, the bytes kept for each virtual channel and the frames still unread together are no more bytes than the frames given. What `filter` writes, even when it panics, is its input with bytes left out: in the same order, none twice. What `merge` writes is no longer than the input files together, each counted once however often it is listed.", "quantifier": "every stream and every way a reader hands it out without failing, every block length, marker, pipeline setting, codec and schedule of the Reed-Solomon stage; every list of frames; every file, every filter setting, every merge setting, set of files and iteration order", "why_tests_cant": "a bound over all inputs: a test shows only that the outputs of its own inputs are small", "anchors": ["ccsds-lib/src/framing/synchronizer.rs: synchronize", "ccsds-lib/src/framing/pipeline/builder.rs: Pipeline::start", "ccsds-lib/src/framing/packets.rs: FramedPacketIter::next", "ccsds-cmd/src/framing/frame.rs: frame_aos", "ccsds-cmd/src/filter.rs: filter", "ccsds-lib/src/spacepacket/merge.rs: Merger::merge"]}
{"id": "C135", "title": "Fill bytes after the packets", "statement": "Appending fill bytes (any number of one byte value) to a file of packets does not change what is decoded from it, nor what the commands do with it.", "quantifier": "every list of well-formed packets of at most 65536 bytes, every byte value and number of fill bytes, every reader that delivers the file", "why_tests_cant": "every number and value of fill bytes after every list of packets", "anchors": ["ccsds-lib/src/spacepacket/mod.rs: Packet::read, Packet::decode, decode_packets", "ccsds-cmd/src/info.rs: summarize", "ccsds-cmd/src/filter.rs: filter", "ccsds-lib/src/spacepacket/merge.rs: Merger::merge", "ccsds-cmd/src/diff.rs: diff"]}
{"id": "C136", "title": "Damage that spares the length fields stays in the packets it hits", "statement": "If bytes of a packet stream are changed, but never one of the two length bytes of a primary header and nothing outside the packets, then decode_packets yields as many packets as before, at the same offsets and of the same lengths, and ends in the same way; every packet none of whose bytes changed is the same, header and data; the total of info is the same; and filter by APID still writes every selected packet that was not hit, in their order.", "quantifier": "for every packet stream and every reader delivering it, every set of damaged bytes (headers included) that spares the length fields, every include and exclude list", "why_tests_cant": "the damage, the packets and the way the reader cuts the stream are arbitrary; C110 only covers damage behind the primary headers", "anchors": ["ccsds-lib/src/spacepacket/mod.rs: decode_packets, Packet::read, PrimaryHeader::decode", "ccsds-cmd/src/filter.rs: filter", "ccsds-cmd/src/info.rs: summarize"]}
{"id": "C137", "title": "info and diff agree with merge", "statement": "A merged file has at most as many packets - in all, of each APID as info reports them, of each diff key - as its inputs together, and, when groups of equal APID, sequence id and time are copies of each other, at least as many as each input all groups of which are to be merged. So `diff input merged` never reports a packet that is only in such an input, and reports as only in the merged file no more than the other inputs hold. A single file that is merged with itself alone is only sorted: diff finds no difference between it and the result.", "quantifier": "for all input files and readers, every set of paths, order, time range and APID selection of the merger, every iteration order of its sets, every checksum function", "why_tests_cant": "the inputs, their overlap and the order in which hash sets are walked are arbitrary; it connects three commands, each with its own notion of what a packet is", "anchors": ["ccsds-lib/src/spacepacket/merge.rs: Merger::merge", "ccsds-cmd/src/info.rs: summarize", "ccsds-cmd/src/diff.rs: diff"]}
{"id": "C138", "title": "Which copy of a packet merge writes", "statement": "When two inputs of a merge hold groups of the same APID, sequence id and time whose bytes differ (one reception is damaged), exactly one of the two is written: always that of the input with more distinct groups to merge, whatever the order in which the inputs are given or the reader map is walked; with equally many, all shared groups come from one of the two inputs, and either may happen. The bytes are not looked at: a damaged copy can replace an intact one in every run.", "quantifier": "for every two readable inputs, every merger over them (order, time range, APIDs) and every iteration order of the hash map and the hash sets", "why_tests_cant": "the iteration order of the hash tables differs from run to run, and the rule must hold for every overlap of the two inputs", "anchors": ["ccsds-lib/src/spacepacket/merge.rs: Merger::merge, Ptr"]}
{"id": "C139", "title": "An iterator can be put down and a new one can go on with the same reader", "statement": "When an iterator of decode_packets is put down after any number of items and a new one is made on the same reader, the new one hands out exactly what the first would still have handed out (the same packets and errors, the same end), with the offsets counted from where it took over; the same holds for the blocks handed out by the synchronizer after a whole block. (For blocks the code violates this when the stream is not byte-aligned: the iterator keeps the rest of the byte the block ends in to itself, so a marker which begins in that byte is lost with its block; exactly: the new iterator hands out the blocks an ideal synchronizer finds from the next byte boundary.)", "quantifier": "every reader (for packets: also ones that fail, are interrupted or go on after an end of file), every number of items taken, every marker and block length", "why_tests_cant": "the reader can be left after any item of any stream; whether something was read ahead depends on the alignment and on how the bytes arrive", "anchors": ["ccsds-lib/src/spacepacket/mod.rs: decode_packets, PacketDecoder::next, Packet::read", "ccsds-lib/src/framing/synchronizer.rs: Synchronizer::scan, Synchronizer::block", "ccsds-lib/src/framing/bytes.rs: Bytes"]}
{"id": "C140", "title": "Frames received again or out of order", "statement": "When frames of a channel are received again (a replay, a frame repeated by a relay) or in another order than sent, packet_decoder hands out, pass by pass (a pass is a stretch of frames in sending order, with any losses and damage), exactly the packets that arrive undisturbed in that pass; a frame that repeats the one before it, or whose counter is lower, reports missing frames, so it does begin a new pass. When one frame of an otherwise perfect reception arrives twice in succession no packet is lost, and those that lie wholly in that frame come out twice. (The last part is violated by the code when no packet starts in the repeated frame: the packet across it is lost.)", "quantifier": "every sequence of passes over any frames a sender of packets makes, with any losses and damage in each; every frame repeated; every packet stream", "why_tests_cant": "which packets are doubled or lost depends on where packet boundaries, frame boundaries and pass boundaries fall", "anchors": ["ccsds-lib/src/framing/packets.rs: packet_decoder, FramedPacketIter, VcidTracker", "ccsds-lib/src/framing/mod.rs: missing_frames", "ccsds-lib/src/framing/pipeline/framing.rs: CaduDecoderIter"]}
{"id": "C141", "title": "Repeated and late packets in the counts", "statement": "What `info` and Summary report as missing for an APID is what was lost: the packets that arrive again, or after packets that were sent later, do not count as missing ones, and do not hide missing ones. (The code counts 16384 more for every packet that is not later than the one before it.)", "quantifier": "every file of whole packets, every APID, every order of reception with any repetitions and losses in which no packet is more than 16384 ahead of, or 16384 or more behind, the one before; every reader; both build profiles", "why_tests_cant": "it is an identity over all finite orders of reception: one repeated packet already reports 16383 missing, two repetitions of the whole range hide it again, and a test sees single histories", "anchors": ["ccsds-lib/src/spacepacket/summary.rs: Summary::add", "ccsds-lib/src/spacepacket/mod.rs: missing_packets", "ccsds-cmd/src/info.rs: summarize"]}
{"id": "C142", "title": "Merging puts the counts right", "statement": "Whatever `info` says about the inputs of a merge, in which packets of an APID may occur several times and in any order (C141), about the merged file it says the truth: every packet is counted once, and the number of missing packets is the number of those between the first and the last that are in no input, unless 16384 or more in a row are.", "quantifier": "every merge of every set of readable input files in which the packets of the APID are unsegmented and have later times the later they were numbered; any repetitions, order and distribution over the files; any other packets; every order of the hash maps; every reader of the result; both build profiles", "why_tests_cant": "it ranges over all distributions of packets over files and all orders in each of them; it connects deduplication, sorting, reading back and counting", "anchors": ["ccsds-lib/src/spacepacket/merge.rs: Merger::merge", "ccsds-cmd/src/info.rs: summarize", "ccsds-lib/src/spacepacket/mod.rs: missing_packets"]}
{"id": "C143", "title": "Repeated, late and lost frames in the counts", "statement": "The number of missing frames reported for a channel is that of the frames, between the first and the last received, that were not received, also if frames are received again or late. What the code reports, exactly: the frames received and reported missing add up to the counters from the first to the last frame plus 16777215 for every frame that is not later than the one received before it; so a single frame received twice is reported as 16777214 missing frames. Without such frames the number is right.", "quantifier": "every sequence of frames and every channel other than the fill channel, of which no frame has the counter 16777215 (C34: there the code panics or reports nonsense at the rollover); any counters, any repetitions and any order, mixed in any way with frames of other channels; every selection of channels of the report; both build profiles", "why_tests_cant": "it ranges over all orders and repetitions of frames in sequences of any length", "anchors": ["ccsds-lib/src/framing/mod.rs: missing_frames", "ccsds-lib/src/framing/pipeline/framing.rs: CaduDecoderIter::next", "ccsds-cmd/src/framing.rs: framing"]}
