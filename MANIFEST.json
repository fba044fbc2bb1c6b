{
 "claims": [
  {
   "property": "C01",
   "status": "proved",
   "theorems": [
    "Claxon.Props.C01_operations",
    "Claxon.Props.C01_chunking"
   ],
   "note": ""
  },
  {
   "property": "C02",
   "status": "proved",
   "theorems": [
    "Claxon.Props.C02_in_bounds",
    "Claxon.Props.C02_contract_needed"
   ],
   "note": "Holds for every source that honours the io::Read contract; C02_contract_needed shows that a safe but ill-behaved Read implementation leads to undefined behaviour."
  },
  {
   "property": "C03",
   "status": "proved",
   "theorems": [
    "Claxon.Props.C03_readU8",
    "Claxon.Props.C03_readBeU16",
    "Claxon.Props.C03_readBeU24",
    "Claxon.Props.C03_readBeU32",
    "Claxon.Props.C03_readLeU32",
    "Claxon.Props.C03_readInto",
    "Claxon.Props.C03_skip"
   ],
   "note": ""
  },
  {
   "property": "C04",
   "status": "partial",
   "theorems": [
    "Claxon.Props.C04_false",
    "Claxon.Props.C04_partial"
   ],
   "note": "The property as stated is false: C04_false exhibits a source whose I/O error is followed by a second delivery of stale buffered bytes. C04_partial proves it for all histories without an I/O error of the wrapped reader. C91 says exactly which bytes come again, and for which sources none do."
  },
  {
   "property": "C05",
   "status": "proved",
   "theorems": [
    "Claxon.Props.C05_bits",
    "Claxon.Props.C05_bits_cursor"
   ],
   "note": ""
  },
  {
   "property": "C06",
   "status": "proved",
   "theorems": [
    "Claxon.Props.C06_unary",
    "Claxon.Props.C06_limit"
   ],
   "note": "C06_limit states the exact limit: a run of 2^32 or more zeros overflows the counter (a panic in a checked build)."
  },
  {
   "property": "C07",
   "status": "proved",
   "theorems": [
    "Claxon.Props.C07_crc8",
    "Claxon.Props.C07_crc16"
   ],
   "note": ""
  },
  {
   "property": "C08",
   "status": "proved",
   "theorems": [
    "Claxon.Props.C08_crc8",
    "Claxon.Props.C08_crc16",
    "Claxon.Props.C08_frame",
    "Claxon.Props.C08_header",
    "Claxon.Props.C08_odd",
    "Claxon.Props.C08_frame_distance",
    "Claxon.Props.C08_header_distance"
   ],
   "note": ""
  },
  {
   "property": "C09",
   "status": "proved",
   "theorems": [
    "Claxon.Props.C09_checked",
    "Claxon.Props.C09_header",
    "Claxon.Props.C09_frame"
   ],
   "note": ""
  },
  {
   "property": "C10",
   "status": "proved",
   "theorems": [
    "Claxon.Props.C10_roundtrip",
    "Claxon.Props.C10_stray",
    "Claxon.Props.C10_bad_continuation",
    "Claxon.Props.C10_only"
   ],
   "note": ""
  },
  {
   "property": "C11",
   "status": "partial",
   "theorems": [
    "Claxon.Props.C11_false",
    "Claxon.Props.C11_partial"
   ],
   "note": "False: after a first byte 0xff seven continuation bytes are read, which gives a 42-bit number (C11_false exhibits an accepted frame at position 2^42-1). C11_partial: all positions are 42-bit numbers, and 36-bit numbers unless the coded number begins with 0xff."
  },
  {
   "property": "C12",
   "status": "proved",
   "theorems": [
    "Claxon.Props.C12_legal",
    "Claxon.Props.C12_deferred"
   ],
   "note": ""
  },
  {
   "property": "C13",
   "status": "proved",
   "theorems": [
    "Claxon.Props.C13_understood"
   ],
   "note": "Sample rates are the subject of C56."
  },
  {
   "property": "C14",
   "status": "proved",
   "theorems": [
    "Claxon.Props.C14_time",
    "Claxon.Props.C14_rejected"
   ],
   "note": ""
  },
  {
   "property": "C15",
   "status": "proved",
   "theorems": [
    "Claxon.Props.C15_leftSide",
    "Claxon.Props.C15_rightSide",
    "Claxon.Props.C15_midSide"
   ],
   "note": "That arbitrary values do not panic is part of the model: the functions are total, and use only wrapping operations and division by the constant 2."
  },
  {
   "property": "C16",
   "status": "proved",
   "theorems": [
    "Claxon.Props.C16_mapping",
    "Claxon.Props.C16_inverse"
   ],
   "note": ""
  },
  {
   "property": "C17",
   "status": "proved",
   "theorems": [
    "Claxon.Props.C17_u32",
    "Claxon.Props.C17_u16"
   ],
   "note": ""
  },
  {
   "property": "C18",
   "status": "proved",
   "theorems": [
    "Claxon.Props.C18_roundtrip",
    "Claxon.Props.C18_differences"
   ],
   "note": ""
  },
  {
   "property": "C19",
   "status": "proved",
   "theorems": [
    "Claxon.Props.C19_lpc",
    "Claxon.Props.C19_determined",
    "Claxon.Props.C19_subframe"
   ],
   "note": ""
  },
  {
   "property": "C20",
   "status": "proved",
   "theorems": [
    "Claxon.Props.C20_partitions",
    "Claxon.Props.C20_notDividing",
    "Claxon.Props.C20_negative"
   ],
   "note": ""
  },
  {
   "property": "C21",
   "status": "proved",
   "theorems": [
    "Claxon.Props.C21_wasted",
    "Claxon.Props.C21_tooMany"
   ],
   "note": ""
  },
  {
   "property": "C22",
   "status": "proved",
   "theorems": [
    "Claxon.Props.C22_subframe"
   ],
   "note": ""
  },
  {
   "property": "C23",
   "status": "proved",
   "theorems": [
    "Claxon.Props.C23_lossless",
    "Claxon.Props.C23_exists"
   ],
   "note": ""
  },
  {
   "property": "C24",
   "status": "proved",
   "theorems": [
    "Claxon.Props.C24_stream"
   ],
   "note": ""
  },
  {
   "property": "C25",
   "status": "proved",
   "theorems": [
    "Claxon.Props.C25_subframe",
    "Claxon.Props.C25_frame"
   ],
   "note": ""
  },
  {
   "property": "C26",
   "status": "proved",
   "theorems": [
    "Claxon.Props.C26_frame",
    "Claxon.Props.C26_frames",
    "Claxon.Props.C26_subframe",
    "Claxon.Props.C26_small",
    "Claxon.Props.C26_bytes",
    "Claxon.Props.C26_release"
   ],
   "note": "C26_frames is about every sequence of calls up to the first I/O error of the wrapped reader, C26_frame about a single call in every reader state; C58_source covers sequences that go on after I/O errors, and sources that never end. C26_release: the results are the same in builds without overflow checks and debug assertions."
  },
  {
   "property": "C27",
   "status": "partial",
   "theorems": [
    "Claxon.Props.C27_false",
    "Claxon.Props.C27_partial",
    "Claxon.Props.C27_frames_partial"
   ],
   "note": "False: C27_false exhibits a stream of 2^29 + 8 bytes on which the u32 counter of a unary code overflows, which panics in a checked build. C27_partial and C27_frames_partial: on any stream this overflow is the only panic, and needs 2^32 - 1 zero bits in a row. Unchecked builds do not panic (C70). C85 gives the exact condition."
  },
  {
   "property": "C28",
   "status": "proved",
   "theorems": [
    "Claxon.Props.C28_independent"
   ],
   "note": ""
  },
  {
   "property": "C29",
   "status": "proved",
   "theorems": [
    "Claxon.Props.C29_len",
    "Claxon.Props.C29_channel",
    "Claxon.Props.C29_noChannel",
    "Claxon.Props.C29_sample",
    "Claxon.Props.C29_noSample",
    "Claxon.Props.C29_nextChannel",
    "Claxon.Props.C29_stereo",
    "Claxon.Props.C29_notStereo",
    "Claxon.Props.C29_empty"
   ],
   "note": "C29_empty records that Block::empty(), which the decoder never returns, does not panic in channel(c), contrary to the documentation."
  },
  {
   "property": "C30",
   "status": "proved",
   "theorems": [
    "Claxon.Props.C30_exact",
    "Claxon.Props.C30_reused",
    "Claxon.Props.C30_grown",
    "Claxon.Props.C30_bounded",
    "Claxon.Props.C30_iterator",
    "Claxon.Props.C30_iteratorKept"
   ],
   "note": "Whether the buffer is reallocated is observed through its capacity. A new vector is taken to have exactly the capacity that was asked for."
  },
  {
   "property": "C31",
   "status": "partial",
   "theorems": [
    "Claxon.Props.C31_false",
    "Claxon.Props.C31_partial",
    "Claxon.Props.C31_fault",
    "Claxon.Props.C31_noBlock"
   ],
   "note": "False for a stream that ends after exactly one byte of a frame: it is reported as a clean end (C31_false). C31_partial proves it for every truncation after at least two bytes; C31_fault and C31_noBlock hold for every truncation point."
  },
  {
   "property": "C32",
   "status": "proved",
   "theorems": [
    "Claxon.Props.C32_local",
    "Claxon.Props.C32_prefix"
   ],
   "note": ""
  },
  {
   "property": "C33",
   "status": "proved",
   "theorems": [
    "Claxon.Props.C33_frames",
    "Claxon.Props.C33_blocks",
    "Claxon.Props.C33_end"
   ],
   "note": ""
  },
  {
   "property": "C34",
   "status": "proved",
   "theorems": [
    "Claxon.Props.C34_error",
    "Claxon.Props.C34_end"
   ],
   "note": ""
  },
  {
   "property": "C35",
   "status": "proved",
   "theorems": [
    "Claxon.Props.C35_overflow",
    "Claxon.Props.C35_noPanic"
   ],
   "note": "For sources that end. C58_samples and C58_session cover any reader and sources that never end. C35_overflow is about all streams: the overflow of C27 is the only panic."
  },
  {
   "property": "C36",
   "status": "proved",
   "theorems": [
    "Claxon.Props.C36_exact",
    "Claxon.Props.C36_open"
   ],
   "note": "C36_exact is about the block body through read_metadata_block; C36_open is about the streaminfo of an opened stream."
  },
  {
   "property": "C37",
   "status": "proved",
   "theorems": [
    "Claxon.Props.C37_bounds",
    "Claxon.Props.C37_open",
    "Claxon.Props.C37_spelled"
   ],
   "note": ""
  },
  {
   "property": "C38",
   "status": "proved",
   "theorems": [
    "Claxon.Props.C38_body",
    "Claxon.Props.C38_block",
    "Claxon.Props.C38_next",
    "Claxon.Props.C38_legal"
   ],
   "note": ""
  },
  {
   "property": "C39",
   "status": "proved",
   "theorems": [
    "Claxon.Props.C39_exact",
    "Claxon.Props.C39_open"
   ],
   "note": ""
  },
  {
   "property": "C40",
   "status": "proved",
   "theorems": [
    "Claxon.Props.C40_block",
    "Claxon.Props.C40_open",
    "Claxon.Props.C40_name"
   ],
   "note": ""
  },
  {
   "property": "C41",
   "status": "proved",
   "theorems": [
    "Claxon.Props.C41_filter",
    "Claxon.Props.C41_noName",
    "Claxon.Props.C41_tags"
   ],
   "note": ""
  },
  {
   "property": "C42",
   "status": "proved",
   "theorems": [
    "Claxon.Props.C42_block",
    "Claxon.Props.C42_open",
    "Claxon.Props.C42_unsupported",
    "Claxon.Props.C42_other",
    "Claxon.Props.C42_transparent"
   ],
   "note": "The requests are observed by a reader that logs every allocation whose size comes from the input (C42_transparent: logging changes nothing else). Room for the list of comments (32 bytes each) is not a string or payload; C42_block bounds it by length/4 entries, once per block. C42_other: blocks of other types request nothing."
  },
  {
   "property": "C43",
   "status": "proved",
   "theorems": [
    "Claxon.Props.C43_items",
    "Claxon.Props.C43_unique",
    "Claxon.Props.C43_nonempty",
    "Claxon.Props.C43_none",
    "Claxon.Props.C43_error",
    "Claxon.Props.C43_last"
   ],
   "note": "C43_items determines all results of any number of calls, by a relation that C43_unique shows to be functional; errors are given by the reasons of C82. C43_none, C43_error and C43_last say that nothing is read any more."
  },
  {
   "property": "C44",
   "status": "proved",
   "theorems": [
    "Claxon.Props.C44_structure",
    "Claxon.Props.C44_all",
    "Claxon.Props.C44_first"
   ],
   "note": ""
  },
  {
   "property": "C45",
   "status": "proved",
   "theorems": [
    "Claxon.Props.C45_ignored",
    "Claxon.Props.C45_reported",
    "Claxon.Props.C45_default"
   ],
   "note": ""
  },
  {
   "property": "C46",
   "status": "proved",
   "theorems": [
    "Claxon.Props.C46_panic",
    "Claxon.Props.C46_ok"
   ],
   "note": ""
  },
  {
   "property": "C47",
   "status": "partial",
   "theorems": [
    "Claxon.Props.C47_false",
    "Claxon.Props.C47_comment_partial",
    "Claxon.Props.C47_one_partial",
    "Claxon.Props.C47_last"
   ],
   "note": "False as stated: C47_false shows that with metadata_only and without read_vorbis_comment one more block is read after the streaminfo. C47_comment_partial, C47_one_partial and C47_last prove the early-out in all other cases, for every continuation of the input, including I/O errors."
  },
  {
   "property": "C48",
   "status": "proved",
   "theorems": [
    "Claxon.Props.C48_position",
    "Claxon.Props.C48_unique"
   ],
   "note": ""
  },
  {
   "property": "C49",
   "status": "proved",
   "theorems": [
    "Claxon.Props.C49_marker",
    "Claxon.Props.C49_short",
    "Claxon.Props.C49_accepted"
   ],
   "note": ""
  },
  {
   "property": "C50",
   "status": "proved",
   "theorems": [
    "Claxon.Props.C50_newExt",
    "Claxon.Props.C50_fuel",
    "Claxon.Props.C50_block",
    "Claxon.Props.C50_withHeader",
    "Claxon.Props.C50_iterator"
   ],
   "note": "fuel bounds the number of iterations of the loop over metadata blocks; C50_fuel shows that it does not influence the result."
  },
  {
   "property": "C51",
   "status": "proved",
   "theorems": [
    "Claxon.Props.C51_symm",
    "Claxon.Props.C51_trans",
    "Claxon.Props.C51_message",
    "Claxon.Props.C51_io",
    "Claxon.Props.C51_text",
    "Claxon.Props.C51_display",
    "Claxon.Props.C51_cause",
    "Claxon.Props.C51_description"
   ],
   "note": "Proved exactly as stated; that an I/O error does not even equal itself makes == not reflexive, as the code says."
  },
  {
   "property": "C52",
   "status": "proved",
   "theorems": [
    "Claxon.Props.C52_cursor"
   ],
   "note": ""
  },
  {
   "property": "C53",
   "status": "partial",
   "theorems": [
    "Claxon.Props.C53_false",
    "Claxon.Props.C53_size_false",
    "Claxon.Props.C53_agree_partial",
    "Claxon.Props.C53_bounds_partial"
   ],
   "note": "False: the streaminfo is not compared to the frames. C53_false (channels) and C53_size_false (block size of a block that is not the last) exhibit streams. C53_agree_partial: it holds if the frames keep to the streaminfo; C53_bounds_partial: bounds that hold for every block."
  },
  {
   "property": "C54",
   "status": "proved",
   "theorems": [
    "Claxon.Props.C54_sequence"
   ],
   "note": ""
  },
  {
   "property": "C55",
   "status": "partial",
   "theorems": [
    "Claxon.Props.C55_false",
    "Claxon.Props.C55_partial",
    "Claxon.Props.C55_difference_partial"
   ],
   "note": "False: C55_false exhibits an accepted frame with 8 bits per sample from which the sample 1000 is decoded. C55_partial: the samples of a channel fit if they are not predicted and the channel is not stored as a difference, whatever the other channels are. C55_difference_partial: without prediction, the samples of difference channels have at most two bits too many. By C23 all samples that an encoder started from are returned, so they fit for every frame that encodes a block."
  },
  {
   "property": "C56",
   "status": "partial",
   "theorems": [
    "Claxon.Props.C56_false",
    "Claxon.Props.C56_partial"
   ],
   "note": "False for rates coded in kHz, which are not multiplied by 1000 (C56_false); C56_partial proves it for all other codes. The frame sample rate is not observable through the public API."
  },
  {
   "property": "C57",
   "status": "proved",
   "theorems": [
    "Claxon.Props.C57_operation",
    "Claxon.Props.C57_operations",
    "Claxon.Props.C57_cursor",
    "Claxon.Props.C57_open",
    "Claxon.Props.C57_samples",
    "Claxon.Props.C57_metadata",
    "Claxon.Props.C57_block"
   ],
   "note": "In an unchecked build a unary code of 2^32 or more zeros is not followed further (the model gives `diverged`); a checked build panics there, so that no theorem says anything about this case."
  },
  {
   "property": "C58",
   "status": "proved",
   "theorems": [
    "Claxon.Props.C58_any_reader",
    "Claxon.Props.C58_returns",
    "Claxon.Props.C58_operations",
    "Claxon.Props.C58_open",
    "Claxon.Props.C58_metadata",
    "Claxon.Props.C58_samples",
    "Claxon.Props.C58_source",
    "Claxon.Props.C58_session"
   ],
   "note": "Opening a stream with endless metadata does not end; this is `diverged` in C58_open."
  },
  {
   "property": "C59",
   "status": "proved",
   "theorems": [
    "Claxon.Props.C59_block",
    "Claxon.Props.C59_blocks",
    "Claxon.Props.C59_ending",
    "Claxon.Props.C59_samples",
    "Claxon.Props.C59_stream"
   ],
   "note": "C59_ending is about all streams: the sequence may end with the overflow of C27, in checked builds. C59_samples and C59_stream exclude inputs with a run of 2^32 - 1 zero bits."
  },
  {
   "property": "C60",
   "status": "proved",
   "theorems": [
    "Claxon.Props.C60_always",
    "Claxon.Props.C60_samples",
    "Claxon.Props.C60_open",
    "Claxon.Props.C60_stream"
   ],
   "note": "C60_always is about all streams, where the sequence for the part may end with the overflow of C27. C60_samples and C60_stream exclude inputs with a run of 2^32 - 1 zero bits, as C35 does."
  },
  {
   "property": "C61",
   "status": "proved",
   "theorems": [
    "Claxon.Props.C61_frame",
    "Claxon.Props.C61_stream"
   ],
   "note": "The encoder is part of the specification (Verif/Spec/Encoder.lean), not of the crate."
  },
  {
   "property": "C62",
   "status": "proved",
   "theorems": [
    "Claxon.Props.C62_operations",
    "Claxon.Props.C62_unread",
    "Claxon.Props.C62_open",
    "Claxon.Props.C62_samples",
    "Claxon.Props.C62_frame"
   ],
   "note": "Stated about the calls of the wrapped reader's read method. A call that reports the end of the file is exempt, since it delivers nothing; a failing source is covered by C04."
  },
  {
   "property": "C63",
   "status": "proved",
   "theorems": [
    "Claxon.Props.C63_tags",
    "Claxon.Props.C63_metadata"
   ],
   "note": "The default size hints of the other iterators (GetTag, FlacSamples) are those of the standard library, (0, None)."
  },
  {
   "property": "C64",
   "status": "proved",
   "theorems": [
    "Claxon.Props.C64_resume",
    "Claxon.Props.C64_uses",
    "Claxon.Props.C64_stream"
   ],
   "note": "The mutable borrow is modelled by giving the state of the frame reader back to the FlacReader when it is dropped."
  },
  {
   "property": "C65",
   "status": "proved",
   "theorems": [
    "Claxon.Props.C65_missing",
    "Claxon.Props.C65_contents",
    "Claxon.Props.C65_default"
   ],
   "note": "The file system is a function from names to an error or a source; a file that changes while it is read is a source like any other."
  },
  {
   "property": "C66",
   "status": "proved",
   "theorems": [
    "Claxon.Props.C66_operation",
    "Claxon.Props.C66_open",
    "Claxon.Props.C66_metadata",
    "Claxon.Props.C66_samples",
    "Claxon.Props.C66_source",
    "Claxon.Props.C66_openSource",
    "Claxon.Props.C66_reliable"
   ],
   "note": "Stated for an arbitrary implementation of ReadBytes, then for the buffered reader around any source that honours the contract of io::Read. The other direction, that a failure of the reader is reported, is C31 and C58."
  },
  {
   "property": "C67",
   "status": "proved",
   "theorems": [
    "Claxon.Props.C67_filled",
    "Claxon.Props.C67_failed",
    "Claxon.Props.C67_contents",
    "Claxon.Props.C67_cursor",
    "Claxon.Props.C67_same",
    "Claxon.Props.C67_sameCursor",
    "Claxon.Props.C67_metadata",
    "Claxon.Props.C67_contract_needed"
   ],
   "note": "The buffer is a list of cells that may be uninitialised (Model/Memory.lean). C67_same shows that the reader that fills such vectors equals the reader of the rest of the model, so that every other theorem is about it too. C67_contract_needed: an implementation of ReadBytes by the user that returns Ok without filling the buffer leads to undefined behaviour."
  },
  {
   "property": "C68",
   "status": "partial",
   "theorems": [
    "Claxon.Props.C68_channel",
    "Claxon.Props.C68_sample",
    "Claxon.Props.C68_stereo",
    "Claxon.Props.C68_iterator",
    "Claxon.Props.C68_iteratorUnchecked",
    "Claxon.Props.C68_noChannel_partial",
    "Claxon.Props.C68_false"
   ],
   "note": "Everything but the panic holds everywhere. The panic: C68_false exhibits a decoded block with one channel of 32768 samples for which, on a 32-bit platform without overflow checks, channel(131072) returns channel 0 (the product wraps around). C68_noChannel_partial: the panic occurs in checked builds, and with 64-bit pointers."
  },
  {
   "property": "C69",
   "status": "proved",
   "theorems": [
    "Claxon.Props.C69_simple",
    "Claxon.Props.C69_simpleError",
    "Claxon.Props.C69_simpleReturns",
    "Claxon.Props.C69_decode",
    "Claxon.Props.C69_agree",
    "Claxon.Props.C69_unchecked",
    "Claxon.Props.C69_decodeEnds"
   ],
   "note": "The crate hound is not modelled: a WAV file is the parameters and the list of samples that the program gives to it. An unchecked write out of bounds is `ub` in the model, and flushing a writer that is not full a panic."
  },
  {
   "property": "C70",
   "status": "proved",
   "theorems": [
    "Claxon.Props.C70_frame",
    "Claxon.Props.C70_frames",
    "Claxon.Props.C70_samples",
    "Claxon.Props.C70_operations",
    "Claxon.Props.C70_anySamples",
    "Claxon.Props.C70_buffered"
   ],
   "note": "The counter of zeros in read_unary wraps in such builds (Model/Bitstream.lean, `readUnaryWrapped`); the model gives up (`diverged`) after 2^64 bytes of zeros in a row, hence the bound on the length, and the `diverged` case for endless readers."
  },
  {
   "property": "C71",
   "status": "proved",
   "theorems": [
    "Claxon.Props.C71_ogg",
    "Claxon.Props.C71_oggEnds",
    "Claxon.Props.C71_mp4",
    "Claxon.Props.C71_mp4Ends"
   ],
   "note": "The crates ogg and mp4parse are not modelled: an Ogg file is its list of packets, an MP4 track is what the program uses of it (metadata blocks, chunk offsets, sample-to-chunk table), and seeking gives any reader that delivers what is at the offset. decode_mp4 counts chunks with 32 bits, hence the bound on their number."
  },
  {
   "property": "C72",
   "status": "partial",
   "theorems": [
    "Claxon.Props.C72_skip_false",
    "Claxon.Props.C72_skip_partial",
    "Claxon.Props.C72_position_partial",
    "Claxon.Props.C72_position_false",
    "Claxon.Props.C72_dataBytes",
    "Claxon.Props.C72_tags",
    "Claxon.Props.C72_noTags",
    "Claxon.Props.C72_files",
    "Claxon.Props.C72_badFile"
   ],
   "note": "Both comments are wrong. C72_skip_false: skipping fails on a packet that is too short; C72_skip_partial says when it succeeds. C72_position_false: the reader has read ahead, up to the buffer size; C72_position_partial: the exact position (rounded up to a multiple of 2048, or the end); C72_dataBytes: so bench_decode counts up to 2047 bytes of audio too few. The part about tags is proved completely (C72_tags, C72_noTags, C72_files, C72_badFile)."
  },
  {
   "property": "C73",
   "status": "proved",
   "theorems": [
    "Claxon.Props.C73_header",
    "Claxon.Props.C73_full",
    "Claxon.Props.C73_singleBlock",
    "Claxon.Props.C73_diff",
    "Claxon.Props.C73_repaired",
    "Claxon.Props.C73_unchecked"
   ],
   "note": "For builds with and without cfg(fuzzing), which turns off the comparison of checksums and makes the buffer smaller. The bound on the loops (fuel) is a linear function of the length of the data. decode_header never panics; the others do not but for the overflow of C27. C73_repaired, C73_unchecked: what cfg(fuzzing) changes for frames."
  },
  {
   "property": "C74",
   "status": "partial",
   "theorems": [
    "Claxon.Props.C74_variable_partial",
    "Claxon.Props.C74_fixed_partial",
    "Claxon.Props.C74_recover",
    "Claxon.Props.C74_false"
   ],
   "note": "False for the last block of a stream with a fixed block size, if it is shorter than the others: claxon multiplies the frame number by the size of that block. C74_false: a legal file with blocks of 16 and 5 samples. C74_variable_partial and C74_fixed_partial: the cases in which it holds; C74_recover: what the time is otherwise, and how to compute the position from it."
  },
  {
   "property": "C75",
   "status": "partial",
   "theorems": [
    "Claxon.Props.C75_body_partial",
    "Claxon.Props.C75_blocks_partial",
    "Claxon.Props.C75_never",
    "Claxon.Props.C75_false"
   ],
   "note": "False for seek tables, cue sheets and pictures (C75_false); C75_body_partial (one block), C75_blocks_partial (iterating) for all others, which also say what these are reported as. C75_never: no reader makes claxon report them."
  },
  {
   "property": "C76",
   "status": "partial",
   "theorems": [
    "Claxon.Props.C76_upFront_partial",
    "Claxon.Props.C76_programs_partial",
    "Claxon.Props.C76_largest",
    "Claxon.Props.C76_false"
   ],
   "note": "False for streams with frames that are larger than announced, which are accepted (C76_false). C76_upFront_partial: for streams that keep to the streaminfo block. C76_largest: a buffer that is enough for every stream. An allocation shows in the capacity of the buffer; the frame decoder has no other allocation."
  },
  {
   "property": "C77",
   "status": "partial",
   "theorems": [
    "Claxon.Props.C77_announced_partial",
    "Claxon.Props.C77_count_false",
    "Claxon.Props.C77_bits_false"
   ],
   "note": "False for streams whose frames do not keep to the streaminfo block, which are accepted without an error (C77_count_false, C77_bits_false). C77_announced_partial: for the streams that keep to it."
  },
  {
   "property": "C78",
   "status": "proved",
   "theorems": [
    "Claxon.Props.C78_frame",
    "Claxon.Props.C78_invalid",
    "Claxon.Props.C78_stream",
    "Claxon.Props.C78_reservedHeader",
    "Claxon.Props.C78_reservedSubframe",
    "Claxon.Props.C78_largeBlock",
    "Claxon.Props.C78_invalidBlock"
   ],
   "note": "C78_frame and C78_invalid for frames, C78_stream for whole streams, C78_reservedHeader and C78_reservedSubframe for reserved values, C78_largeBlock and C78_invalidBlock for metadata."
  },
  {
   "property": "C79",
   "status": "proved",
   "theorems": [
    "Claxon.Props.C79_audio"
   ],
   "note": ""
  },
  {
   "property": "C80",
   "status": "proved",
   "theorems": [
    "Claxon.Props.C80_blocks",
    "Claxon.Props.C80_samples",
    "Claxon.Props.C80_stream"
   ],
   "note": ""
  },
  {
   "property": "C81",
   "status": "proved",
   "theorems": [
    "Claxon.Props.C81_reason",
    "Claxon.Props.C81_unique",
    "Claxon.Props.C81_outcome",
    "Claxon.Props.C81_ioError",
    "Claxon.Props.C81_truncated",
    "Claxon.Props.C81_features"
   ],
   "note": "C81_reason is the equivalence, C81_unique says that the reasons exclude each other and frames, C81_outcome classifies every result, C81_ioError and C81_truncated are about input that ends, C81_features about Unsupported. The reasons are in Spec/Refused.lean."
  },
  {
   "property": "C82",
   "status": "proved",
   "theorems": [
    "Claxon.Props.C82_reason",
    "Claxon.Props.C82_unique",
    "Claxon.Props.C82_outcome",
    "Claxon.Props.C82_truncated",
    "Claxon.Props.C82_ioError",
    "Claxon.Props.C82_unsupported",
    "Claxon.Props.C82_block",
    "Claxon.Props.C82_blockOutcome"
   ],
   "note": "C82_reason is the equivalence for opening a stream, C82_block for a single metadata block; C82_unique says that the reasons exclude each other and success, C82_outcome and C82_blockOutcome classify every result, C82_ioError and C82_truncated are about input that ends, C82_unsupported about large blocks. The reasons are in Spec/RefusedMetadata.lean."
  },
  {
   "property": "C83",
   "status": "proved",
   "theorems": [
    "Claxon.Props.C83_operations",
    "Claxon.Props.C83_overflow",
    "Claxon.Props.C83_samples",
    "Claxon.Props.C83_source",
    "Claxon.Props.C83_session",
    "Claxon.Props.C83_stereo"
   ],
   "note": "For builds with overflow checks; for builds without them it is C70, where nothing panics. The contract of io::Read is needed (C02). The unchecked accesses to memory in the crate are those of the buffered reader (C02), the uninitialised vectors of the metadata code (C67), and the stereo iterator (C83_stereo); in the model they give `ub` when they are wrong."
  },
  {
   "property": "C84",
   "status": "proved",
   "theorems": [
    "Claxon.Props.C84_total",
    "Claxon.Props.C84_unique",
    "Claxon.Props.C84_blocks",
    "Claxon.Props.C84_samples",
    "Claxon.Props.C84_overflow",
    "Claxon.Props.C84_sessionTotal",
    "Claxon.Props.C84_session",
    "Claxon.Props.C84_sessionUnique"
   ],
   "note": "C84_total and C84_unique say that the relation Decodes is a function; C84_blocks and C84_samples that the frame reader and the sample iterator compute it, for all inputs, C84_overflow that the overflow is for inputs of half a gigabyte; C84_session, C84_sessionTotal and C84_sessionUnique are the same for a whole stream, from opening to the end. The relations are in Spec/Session.lean. Checksums are compared (no fuzzing)."
  },
  {
   "property": "C85",
   "status": "proved",
   "theorems": [
    "Claxon.Props.C85_overflow",
    "Claxon.Props.C85_returns",
    "Claxon.Props.C85_exclusive",
    "Claxon.Props.C85_size",
    "Claxon.Props.C85_prefix"
   ],
   "note": "C85_overflow is the equivalence, C85_returns its complement; C85_exclusive, C85_size and C85_prefix are about the inputs in question, which are described in Spec/Uncountable.lean. For builds with overflow checks; without them there is no panic (C70)."
  },
  {
   "property": "C86",
   "status": "proved",
   "theorems": [
    "Claxon.Props.C86_bits",
    "Claxon.Props.C86_same",
    "Claxon.Props.C86_loose",
    "Claxon.Props.C86_frame",
    "Claxon.Props.C86_wellFormed",
    "Claxon.Props.C86_exactly",
    "Claxon.Props.C86_more",
    "Claxon.Props.C86_end",
    "Claxon.Props.C86_error",
    "Claxon.Props.C86_total",
    "Claxon.Props.C86_unique",
    "Claxon.Props.C86_agrees",
    "Claxon.Props.C86_samples"
   ],
   "note": "C86_bits is the release version of C05, exact. C86_loose and C86_frame say exactly what is decoded as a frame, for all inputs (Spec/Loose.lean); C86_wellFormed: this includes the frames of the format. C86_same and C86_exactly: no difference unless there are more zeros in a row than can be counted. C86_more: there is a difference. C86_end, C86_error, C86_total, C86_unique and C86_samples extend this to complete inputs (Spec/LooseSession.lean): the blocks and samples are prescribed exactly, and whether an error follows; which error it is only where no counter overflows (C86_same, C86_agrees, C81)."
  },
  {
   "property": "C87",
   "status": "proved",
   "theorems": [
    "Claxon.Props.C87_refused",
    "Claxon.Props.C87_position",
    "Claxon.Props.C87_checksum",
    "Claxon.Props.C87_pieces",
    "Claxon.Props.C87_ends"
   ],
   "note": "C87_refused and C87_position: where the reader is after an error; C87_checksum: the case of a wrong frame checksum; C87_pieces: streams with parts that are refused; C87_ends: a client that ignores errors reaches the end."
  },
  {
   "property": "C88",
   "status": "proved",
   "theorems": [
    "Claxon.Props.C88_simple",
    "Claxon.Props.C88_simpleOthers",
    "Claxon.Props.C88_alone",
    "Claxon.Props.C88_simpleWav",
    "Claxon.Props.C88_decode",
    "Claxon.Props.C88_decodeWav",
    "Claxon.Props.C88_decodeOthers",
    "Claxon.Props.C88_decodeStops",
    "Claxon.Props.C88_containersOthers",
    "Claxon.Props.C88_containers",
    "Claxon.Props.C88_containersStop"
   ],
   "note": "decode_simple: C88_simple (all files are treated, what is printed), C88_alone, C88_simpleWav, C88_simpleOthers (the WAV files). decode: C88_decode, C88_decodeWav, C88_decodeStops, C88_decodeOthers. decode_ogg and decode_mp4: C88_containers, C88_containersStop, C88_containersOthers, to be combined with C71."
  },
  {
   "property": "C89",
   "status": "proved",
   "theorems": [
    "Claxon.Props.C89_decode",
    "Claxon.Props.C89_metadata"
   ],
   "note": "C89_decode: the outcome of bench_decode as a function of the outcome of the input (C84), for every input. C89_metadata: the outcome of bench_metadata on files with metadata."
  },
  {
   "property": "C90",
   "status": "proved",
   "theorems": [
    "Claxon.Props.C90_bench",
    "Claxon.Props.C90_release"
   ],
   "note": "C90_bench: the outcome as a function of the outcome of the input (C84) and the number of iterations, with overflow checks; in particular no undefined behaviour. C90_release: the same without overflow checks, for all inputs that a build with overflow checks decodes without an overflow."
  },
  {
   "property": "C91",
   "status": "proved",
   "theorems": [
    "Claxon.Props.C91_unread",
    "Claxon.Props.C91_error",
    "Claxon.Props.C91_eof",
    "Claxon.Props.C91_chunk",
    "Claxon.Props.C91_noneTwice"
   ],
   "note": "For all histories of a source that honours its contract, and all operations. C91_error: what comes again; C91_chunk: the usual case, in which failing calls write nothing; C91_eof; C91_unread: at any other time; C91_noneTwice: when C04 holds although there are errors."
  },
  {
   "property": "C92",
   "status": "partial",
   "theorems": [
    "Claxon.Props.C92_false",
    "Claxon.Props.C92_partial",
    "Claxon.Props.C92_first_partial",
    "Claxon.Props.C92_only"
   ],
   "note": "False for blocks of other types (C92_false). C92_partial and C92_first_partial: application and Vorbis comment blocks, for all options that ask for the block to be read (Continues). C92_only: the converse. C42_other: blocks of the other types request no memory."
  },
  {
   "property": "C93",
   "status": "partial",
   "theorems": [
    "Claxon.Props.C93_rms_partial",
    "Claxon.Props.C93_rms_overflow",
    "Claxon.Props.C93_rms_wraps",
    "Claxon.Props.C93_rms_false",
    "Claxon.Props.C93_rms_error",
    "Claxon.Props.C93_decode",
    "Claxon.Props.C93_decodes",
    "Claxon.Props.C93_artists",
    "Claxon.Props.C93_noArtists"
   ],
   "note": "False for the first example (C93_rms_false: 2^31 samples; C93_rms_overflow: all longer streams panic; C93_rms_wraps: the result in a build without overflow checks, for streams of any length). C93_rms_partial: shorter streams; C93_rms_error: errors. Floating-point operations are a parameter, with nothing assumed. The second and the third example are proved completely (C93_decode, C93_decodes, C93_artists, C93_noArtists)."
  },
  {
   "property": "C94",
   "status": "partial",
   "theorems": [
    "Claxon.Props.C94_false",
    "Claxon.Props.C94_frames_partial",
    "Claxon.Props.C94_samples_partial"
   ],
   "note": "False on the empty input (C94_false). C94_frames_partial and C94_samples_partial: exactly when nothing is yielded."
  },
  {
   "property": "C95",
   "status": "proved",
   "theorems": [
    "Claxon.Props.C95_tags",
    "Claxon.Props.C95_tags_unique",
    "Claxon.Props.C95_getTag"
   ],
   "note": "Each call of either iterator for arbitrary comments, with the panics; C95_tags_unique: the specification determines the results."
  }
 ]
}
