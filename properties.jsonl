{"id": "C01", "title": "Chunking independence of the buffered input", "statement": "Whatever FlacReader::new_ext, FrameReader::read_next_or_eof and the sample iterators return depends only on the concatenation of the bytes the wrapped io::Read delivers (and on the first I/O error or end of file after them), never on how the bytes are split over read() calls or on what the reader scribbles behind the bytes it reports.", "quantifier": "every byte stream, every split of it into non-empty read() results of at most the buffer size, and every sequence of operations up to the first I/O error", "why_tests_cant": "the number of ways to split a stream is exponential; tests use Cursor or File, which always fill the buffer", "anchors": ["src/input.rs: BufferedReader::{new,read_u8,read_u8_or_eof,read_into,skip}"]}
{"id": "C02", "title": "Unchecked buffer access stays in bounds", "statement": "The buffered reader's unchecked index is always within the allocated buffer for every io::Read that honours its contract (returns n <= buf.len()); no operation sequence, including after EOF or I/O errors, reaches undefined behaviour.", "quantifier": "every contract-abiding io::Read behaviour (including errors and EOF at any point) and every sequence of read_u8/read_u8_or_eof/read_into/skip calls", "why_tests_cant": "undefined behaviour need not be visible in a test run and depends on the whole history of refills", "anchors": ["src/input.rs: BufferedReader::read_u8 (get_unchecked)"]}
{"id": "C03", "title": "Multi-byte reads and skips are exact", "statement": "read_be_u16/u24/u32 and read_le_u32 return the big-/little-endian value of exactly the next 2/3/4/4 bytes; read_into(buffer) fills the whole buffer with exactly the next buffer.len() bytes; skip(n) advances exactly n bytes; if fewer bytes are available an UnexpectedEof I/O error is returned. This holds on BufferedReader and on Cursor.", "quantifier": "every byte stream, every position, every buffer length and every skip amount, also across refills of the internal buffer", "why_tests_cant": "boundary behaviour depends on the relative position of the read and of the internal refill, for unbounded sizes", "anchors": ["src/input.rs: ReadBytes, BufferedReader::{read_into,skip}, impl ReadBytes for Cursor"]}
{"id": "C04", "title": "No byte is delivered twice", "statement": "A byte delivered by the wrapped reader is handed to the decoder at most once, also when the wrapped reader reports an I/O error in between and the user goes on reading.", "quantifier": "every io::Read behaviour with I/O errors at arbitrary points and every sequence of reads", "why_tests_cant": "needs a fault at every possible refill point; a transient error after a refill is never exercised by tests", "anchors": ["src/input.rs: BufferedReader::read_u8 (self.pos = 0 before try!)"]}
{"id": "C05", "title": "Bit-level reads are reads from one flat bit string", "statement": "Any interleaving of Bitstream::read_bit, read_unary, read_leq_u8, read_gt_u8_leq_u16, read_leq_u16 and read_leq_u32 behaves as if the underlying bytes were one most-significant-bit-first bit string from which the requested number of bits is removed at the front: the value returned is the big-endian value of those bits and an UnexpectedEof error is returned exactly when too few bits remain (and, in a build with overflow checks, a panic exactly when there are 2^32 zeros for read_unary to count, C06).", "quantifier": "every byte stream and every sequence of bit-level reads with every legal width", "why_tests_cant": "the alignment state makes the behaviour depend on the whole sequence of earlier reads", "anchors": ["src/input.rs: Bitstream"]}
{"id": "C06", "title": "Unary reads count arbitrarily long runs", "statement": "Bitstream::read_unary returns the number of zero bits in front of the next one bit and consumes exactly those bits and the one, for every run length below 2^32, at any alignment.", "quantifier": "every run length and every starting alignment", "why_tests_cant": "run lengths are unbounded and cross arbitrarily many byte boundaries", "anchors": ["src/input.rs: Bitstream::read_unary"]}
{"id": "C07", "title": "Checksum readers compute the documented polynomials", "statement": "After reading any sequence of bytes, the CRC-8 reader's value is the remainder of the message times x^8 modulo x^8+x^2+x+1, and the CRC-16 reader's value the remainder of the message times x^16 modulo x^16+x^15+x^2+1, both with initial value 0; reading through them does not alter the bytes read.", "quantifier": "every byte sequence of every length", "why_tests_cant": "three test vectors cannot exclude a wrong table entry or a wrong update for other inputs", "anchors": ["src/crc.rs: CRC8_TABLE, CRC16_TABLE, Crc8Reader, Crc16Reader"]}
{"id": "C08", "title": "Checksums detect every short error burst and every error of up to three bits", "statement": "Two byte strings of equal length that differ, and whose difference is confined to 8 (resp. 16) consecutive bits, never have the same CRC-8 (resp. CRC-16); so a frame (header) corrupted by such a burst that leaves its length unchanged is never accepted. An odd number of changed bits is always detected. Two different accepted frames of equal length of at most 4096 bytes, and two different accepted headers of equal length, differ in at least four bits.", "quantifier": "every message, every burst position and every burst pattern", "why_tests_cant": "the set of messages and corruptions is infinite", "anchors": ["src/crc.rs", "src/frame.rs: read_frame_header_or_eof, FrameReader::read_next_or_eof"]}
{"id": "C09", "title": "A block is only returned if both checksums match", "statement": "If read_next_or_eof returns a block, then the bytes it consumed are a header whose last byte is the CRC-8 of the header bytes before it, followed by data, whose last two bytes are the big-endian CRC-16 of all frame bytes before them. Bytes whose stored checksum differs yield an error.", "quantifier": "every byte stream", "why_tests_cant": "needs all byte streams, including those where the parse depends on the corrupted bytes", "anchors": ["src/frame.rs: read_frame_header_or_eof, FrameReader::read_next_or_eof"]}
{"id": "C10", "title": "Variable-length integers decode to what was encoded", "statement": "For every value of at most 36 bits, decoding its UTF-8-like encoding in a frame header returns that value and consumes exactly the encoding; a stray continuation byte as first byte, or a follow-up byte not of the form 10xxxxxx, is a format error.", "quantifier": "all values below 2^36, all byte streams", "why_tests_cant": "2^36 values and all malformed encodings", "anchors": ["src/frame.rs: read_var_length_int"]}
{"id": "C11", "title": "Sample numbers fit in 36 bits", "statement": "The position reported for a block coded with the variable-blocksize strategy is a 36-bit number, as the format and the comments state.", "quantifier": "every accepted frame header", "why_tests_cant": "requires exploring all first bytes with all continuations; no test uses a first byte 0xff", "anchors": ["src/frame.rs: read_var_length_int, read_frame_header_or_eof"]}
{"id": "C12", "title": "Accepted frame headers are legal", "statement": "Every header that is accepted has a block size in 1..=65535, 1 to 8 channels, a bit depth of 8, 12, 16, 20 or 24 (a header that defers bit depth to streaminfo yields Unsupported), and contains no reserved bit pattern (reserved sync bit, block size 0000, sample rate 1111, channel assignment 1011-1111, sample size 011/111, reserved bit, block size 65536).", "quantifier": "every byte stream", "why_tests_cant": "2^32 fixed header prefixes times the variable part", "anchors": ["src/frame.rs: read_frame_header_or_eof"]}
{"id": "C13", "title": "Every legal frame header is understood", "statement": "For every legal combination of blocking strategy, block size code (table, 8-bit, 16-bit), sample rate code, channel assignment, bit depth and frame/sample number, a header encoded according to the format is accepted and consumed exactly, and its block size, channels, bit depth and number are decoded to exactly those values (for the sample rate see C56).", "quantifier": "all legal header field combinations", "why_tests_cant": "the product of all fields and numbers is far too large to enumerate", "anchors": ["src/frame.rs: read_frame_header_or_eof"]}
{"id": "C14", "title": "Block time is computed exactly", "statement": "Block::time() is the coded sample number for variable-blocksize frames and frame number times block size for fixed-blocksize frames, and is computed without overflow; a frame number above 31 bits is rejected. (Whether that is the position of the block in the stream is C74.)", "quantifier": "every accepted frame", "why_tests_cant": "2^31 frame numbers times 65535 block sizes", "anchors": ["src/frame.rs: FrameReader::read_next_or_eof, Block::time"]}
{"id": "C15", "title": "Stereo decorrelation is lossless", "statement": "For left/side, right/side and mid/side coding, decoding the side (and mid) signals derived from any left/right signals gives back exactly the left and right signals, for every sample width the format supports (and every width up to 31 bits); for arbitrary, even invalid, values it never panics.", "quantifier": "every pair of channel signals of every length", "why_tests_cant": "2^64 sample pairs and the rounding of odd sums", "anchors": ["src/frame.rs: decode_left_side, decode_right_side, decode_mid_side"]}
{"id": "C16", "title": "Rice-to-signed mapping is a bijection", "statement": "The mapping from folded unsigned residuals to signed residuals sends 2k to k and 2k+1 to -1-k for every 32-bit value, so it is the exact inverse of the folding used by encoders.", "quantifier": "all 2^32 values", "why_tests_cant": "2^32 values", "anchors": ["src/subframe.rs: rice_to_signed"]}
{"id": "C17", "title": "Sign extension is two's complement", "statement": "Reading an n-bit two's complement field and sign-extending it gives back the integer that was written, for every n in 1..=32 (1..=16 for the 16-bit variant) and every integer in range.", "quantifier": "all widths and all values", "why_tests_cant": "about 2^33 cases", "anchors": ["src/subframe.rs: extend_sign_u16, extend_sign_u32"]}
{"id": "C18", "title": "Fixed predictors reconstruct the signal", "statement": "For orders 0 to 4, reconstructing from warm-up samples and residuals gives exactly the signal whose order-th finite differences are the residuals; for any signal whose samples fit in 32 bits the round trip is exact.", "quantifier": "every signal of every length and every order 0..=4", "why_tests_cant": "unbounded signals; intermediate wrap-around must be shown to cancel", "anchors": ["src/subframe.rs: predict_fixed, decode_fixed"]}
{"id": "C19", "title": "LPC reconstruction follows the format for every order", "statement": "For every predictor order 1..=32, every shift 0..=15 and every coefficient and residual vector, the reconstructed sample n is residual n plus the arithmetically right-shifted inner product of the coefficients with the preceding samples; the specialised path for orders up to 12 computes the same as the general one; the 64-bit accumulator never overflows.", "quantifier": "every order, shift, coefficient vector, warm-up and residual vector of every length", "why_tests_cant": "unbounded signals, extreme coefficients and samples", "anchors": ["src/subframe.rs: predict_lpc_low_order, predict_lpc_high_order, decode_lpc"]}
{"id": "C20", "title": "Residual partitions exactly fill the block", "statement": "For every accepted partition order the partitions' samples are decoded into consecutive positions, without gap or overlap, and exactly fill the part of the block after the warm-up samples; a partition order that does not divide the block size or whose first partition would be negative is a format error.", "quantifier": "every block size, predictor order and partition order", "why_tests_cant": "the layout depends on block size, predictor order and partition order in combination", "anchors": ["src/subframe.rs: decode_residual"]}
{"id": "C21", "title": "Wasted bits are restored", "statement": "A subframe coded with k wasted bits decodes to the samples of the coded (bps-k)-bit subframe multiplied by 2^k; k >= bps is a format error.", "quantifier": "every subframe, every k", "why_tests_cant": "combination of all subframes and k", "anchors": ["src/subframe.rs: read_subframe_header, decode"]}
{"id": "C22", "title": "Every legal subframe decodes to its samples", "statement": "For every legal subframe (constant, verbatim, fixed of order 0-4, LPC of order 1-32, Rice or Rice2 residual with any partition order and parameters, any wasted bits count) the bits prescribed by the format decode to exactly the samples it denotes, and exactly those bits are consumed.", "quantifier": "every legal subframe description, every bit depth up to 32, every block size up to 65535", "why_tests_cant": "the space of legal subframes is infinite", "anchors": ["src/subframe.rs: decode"]}
{"id": "C23", "title": "Lossless frame decoding", "statement": "For every block of PCM samples, every channel assignment and every legal choice of subframe codings, the frame produced by an encoder following the format decodes to exactly the original samples, with the right duration and channel count, and the time that its header denotes (C14).", "quantifier": "every PCM block and every encoder choice", "why_tests_cant": "unbounded space of signals and encoder choices", "anchors": ["src/frame.rs: FrameReader::read_next_or_eof"]}
{"id": "C24", "title": "Lossless stream decoding", "statement": "For every stream made of the fLaC marker, legal metadata blocks starting with streaminfo, and any number of legal frames, opening it and collecting the sample iterator gives exactly the channel-interleaved original samples of all frames in order and then the end, and streaminfo() and tags() are what was encoded.", "quantifier": "every legal stream", "why_tests_cant": "infinite input space", "anchors": ["src/lib.rs: FlacReader::new_ext, FlacSamples::next"]}
{"id": "C25", "title": "Only encodings of the format are accepted", "statement": "Whenever a subframe (resp. frame) is decoded successfully, the bits consumed are the format's encoding of some legal subframe description and the samples returned are the ones that description denotes (modulo 2^32).", "quantifier": "every byte stream", "why_tests_cant": "quantifies over all inputs and asserts existence of a description", "anchors": ["src/subframe.rs: decode", "src/frame.rs: FrameReader::read_next_or_eof"]}
{"id": "C26", "title": "Frame decoding never panics", "statement": "On any byte stream, of any length, that does not contain 2^32 - 1 zero bits in a row (in particular on any stream below 512 MiB), decoding frames never panics: no arithmetic overflow in checked builds, no out-of-range shift, index or slice, no failed debug assertion, no division by zero. Hence checked and unchecked builds behave identically.", "quantifier": "every byte stream without 2^32 - 1 consecutive zero bits, every initial buffer, every number of frames", "why_tests_cant": "fuzzing samples only finitely many inputs", "anchors": ["src/frame.rs", "src/subframe.rs", "src/input.rs"]}
{"id": "C27", "title": "Frame decoding never panics, without a size limit", "statement": "On any byte stream of any length, decoding a frame never panics on arithmetic overflow.", "quantifier": "every byte stream", "why_tests_cant": "a counterexample needs more than half a gigabyte of zeros", "anchors": ["src/input.rs: Bitstream::read_unary (n = n + zeros)"]}
{"id": "C28", "title": "Recycled buffer contents never leak", "statement": "The block returned by read_next_or_eof(buffer) does not depend on the contents, length or capacity of the buffer passed in: every returned sample was decoded from the stream.", "quantifier": "every byte stream and every pair of buffers", "why_tests_cant": "a leak needs a particular malformed partition layout (an actual past vulnerability)", "anchors": ["src/frame.rs: ensure_buffer_len, FrameReader::read_next_or_eof", "src/subframe.rs: decode_residual"]}
{"id": "C29", "title": "Block accessors are consistent", "statement": "For every returned block, len() = duration() * channels(), channel(c) has duration() elements for c < channels() and panics otherwise, sample(c, i) is the i-th element of channel(c) and panics if c >= channels() or, for the last channel, i >= duration() (for other channels it continues with the next), and stereo_samples() yields exactly the duration() pairs of channels 0 and 1 in order, without out-of-bounds access, and panics if there are not two channels.", "quantifier": "every block returned by the decoder, all indices", "why_tests_cant": "all shapes of blocks", "anchors": ["src/frame.rs: Block, StereoSamples"]}
{"id": "C30", "title": "Buffer reuse avoids reallocation", "statement": "If the buffer passed in has capacity for all samples of the frame, it is reused without allocation; otherwise a larger one is allocated; the returned block's buffer holds exactly len() samples. A sample iterator keeps its buffer in the same way. The buffer of a block never has more capacity than the one that was passed in or than 65535 samples in 8 channels need (2 MiB), and the buffer of a sample iterator never has more than that.", "quantifier": "every buffer and every frame size", "why_tests_cant": "all combinations of length, capacity and frame size", "anchors": ["src/frame.rs: ensure_buffer_len"]}
{"id": "C31", "title": "Truncated frames are reported", "statement": "If a stream ends in the middle of a frame, read_next_or_eof returns an UnexpectedEof error and never a block or a clean end of stream.", "quantifier": "every frame and every truncation point", "why_tests_cant": "every truncation point of every frame", "anchors": ["src/frame.rs: read_next_or_eof, read_frame_header_or_eof", "src/input.rs: read_be_u16_or_eof"]}
{"id": "C32", "title": "Frame decoding is local", "statement": "Decoding a frame depends only on the bytes of that frame: bytes following it influence neither the result nor the position where reading resumes, which is the byte after the frame's CRC-16.", "quantifier": "every frame and every continuation of the stream", "why_tests_cant": "all continuations", "anchors": ["src/frame.rs: FrameReader::read_next_or_eof"]}
{"id": "C33", "title": "The sample iterator is the interleaving of the blocks", "statement": "samples() yields, for every frame in order, its samples ordered by inter-channel sample index first and channel second, exactly once each, and then None.", "quantifier": "every stream, every number of frames, channel counts and block sizes", "why_tests_cant": "unbounded sequences; off-by-one behaviour at block boundaries for all shapes", "anchors": ["src/lib.rs: FlacSamples::next"]}
{"id": "C34", "title": "The sample iterator stops after an error", "statement": "Once samples() yields an error, every later call to next() returns None without reading further; when it has yielded None at end of file it keeps yielding None (for inputs that stay at end of file).", "quantifier": "every stream and every number of further calls", "why_tests_cant": "unbounded number of further calls", "anchors": ["src/lib.rs: FlacSamples::next"]}
{"id": "C35", "title": "The sample iterator never panics", "statement": "Iterating samples() over any byte stream without 2^32 - 1 zero bits in a row never panics, also when block sizes and channel counts change from frame to frame.", "quantifier": "every byte stream without 2^32 - 1 consecutive zero bits, any number of calls", "why_tests_cant": "all inputs", "anchors": ["src/lib.rs: FlacSamples::next"]}
{"id": "C36", "title": "Streaminfo is decoded exactly", "statement": "For every legal streaminfo (block size bounds, frame size bounds, sample rate, channels 1-8, bits per sample 1-32, sample count, MD5) decoding its 34-byte encoding gives exactly those values, with unknown (0) frame sizes and sample counts reported as None.", "quantifier": "all legal streaminfo values", "why_tests_cant": "2^272 values", "anchors": ["src/metadata.rs: read_streaminfo_block"]}
{"id": "C37", "title": "Accepted streaminfo satisfies the documented bounds", "statement": "Every streaminfo that is accepted satisfies 16 <= min_block_size <= max_block_size, 1 <= sample_rate <= 655350, 1 <= channels <= 8, 1 <= bits_per_sample <= 32, samples < 2^36, frame sizes below 2^24 and ordered when both known, and Some fields are non-zero.", "quantifier": "every byte stream", "why_tests_cant": "2^272 inputs", "anchors": ["src/metadata.rs: read_streaminfo_block"]}
{"id": "C38", "title": "Metadata blocks consume exactly their length", "statement": "Whenever a metadata block of any type is read successfully, exactly the 4 header bytes plus the announced length were consumed, so that the next block (or the first frame) is found at the right position.", "quantifier": "every byte stream, block type and length", "why_tests_cant": "all block types, lengths and contents", "anchors": ["src/metadata.rs: read_metadata_block, read_metadata_block_with_header"]}
{"id": "C39", "title": "Vorbis comments are decoded exactly", "statement": "For every vendor string and list of NAME=value comments (valid UTF-8, legal names) within the size limit, decoding their encoding returns exactly the vendor string and the comments in order; zero-length comments are skipped and do not affect the rest.", "quantifier": "every list of comments, every placement of empty comments", "why_tests_cant": "unbounded lists", "anchors": ["src/metadata.rs: read_vorbis_comment_block"]}
{"id": "C40", "title": "Accepted tags are well-formed", "statement": "For every accepted Vorbis comment, each name consists of bytes 0x20..0x7d other than '=', name and value are valid UTF-8, name + '=' + value is the stored comment, and the tag iterators never panic on string slicing.", "quantifier": "every byte stream", "why_tests_cant": "all inputs", "anchors": ["src/metadata.rs: read_vorbis_comment_block, Tags, GetTag"]}
{"id": "C41", "title": "get_tag is a case-insensitive filter", "statement": "get_tag(name) yields exactly the values of the tags whose name equals name up to ASCII case, in order, so nothing for a name that has a '=' or is not ASCII; repeated calls after the end keep returning None.", "quantifier": "every tag list and every name", "why_tests_cant": "unbounded lists and names", "anchors": ["src/metadata.rs: GetTag::next", "src/lib.rs: FlacReader::get_tag"]}
{"id": "C42", "title": "Memory requested for metadata is bounded", "statement": "No metadata block makes the reader request more than 10 MiB for a single string or payload; application and Vorbis comment blocks announcing more yield Unsupported before anything is allocated, and blocks of other types never make it allocate anything; the sum of all requested comment bytes is at most the announced block length.", "quantifier": "every byte stream", "why_tests_cant": "all announced lengths, incl. malicious ones", "anchors": ["src/metadata.rs: read_vorbis_comment_block, read_application_block"]}
{"id": "C43", "title": "Metadata iteration protocol", "statement": "The metadata block iterator yields at least one element; it yields blocks up to and including the first one flagged last, or up to and including the first error, and None ever after, without reading more input.", "quantifier": "every byte stream, every number of calls", "why_tests_cant": "unbounded call sequences", "anchors": ["src/metadata.rs: MetadataBlockReader"]}
{"id": "C44", "title": "Stream structure is enforced", "statement": "new_ext succeeds only if the first metadata block is streaminfo, and, when reading everything, there is no second streaminfo and at most one Vorbis comment block.", "quantifier": "every byte stream and all options", "why_tests_cant": "all sequences of metadata blocks", "anchors": ["src/lib.rs: FlacReader::new_ext"]}
{"id": "C45", "title": "Reader options behave as documented", "statement": "With read_vorbis_comment = false, vendor()/tags()/get_tag() report nothing, whatever the stream contains; with metadata_only = true a successful reader reports the first Vorbis comment before the end of metadata if tags were requested. The default options, used by new(), report the Vorbis comment and give access to the audio.", "quantifier": "every byte stream and all options", "why_tests_cant": "all streams", "anchors": ["src/lib.rs: FlacReaderOptions, FlacReader::new_ext"]}
{"id": "C46", "title": "metadata_only readers refuse audio access", "statement": "blocks(), samples() and into_samples() panic exactly for readers constructed with metadata_only = true.", "quantifier": "every stream and all options", "why_tests_cant": "all streams", "anchors": ["src/lib.rs: FlacReader::{blocks,samples,into_samples}"]}
{"id": "C47", "title": "Early-out reading of metadata", "statement": "As soon as all desired blocks have been read, new_ext returns without reading remaining metadata blocks; in particular with metadata_only = true and read_vorbis_comment = false only the streaminfo block is read.", "quantifier": "every stream", "why_tests_cant": "observing unread input requires a failing continuation for every stream", "anchors": ["src/lib.rs: FlacReader::new_ext, FlacReaderOptions"]}
{"id": "C48", "title": "Opening positions the reader at the first frame", "statement": "After new() succeeds the next byte read is the one after the metadata block flagged last; all bytes before it were consumed exactly once.", "quantifier": "every byte stream", "why_tests_cant": "all metadata sequences", "anchors": ["src/lib.rs: FlacReader::new_ext"]}
{"id": "C49", "title": "The stream marker is checked", "statement": "A stream is rejected with a format error unless its first four bytes are fLaC; if they start with ID3 the error says so; fewer than four bytes give UnexpectedEof.", "quantifier": "every byte stream", "why_tests_cant": "2^32 prefixes", "anchors": ["src/lib.rs: read_stream_header"]}
{"id": "C50", "title": "Opening never panics", "statement": "new_ext, read_metadata_block, read_metadata_block_with_header and the metadata iterator never panic, on any bytes, block type, length and options.", "quantifier": "every byte stream, type, length, options", "why_tests_cant": "all inputs", "anchors": ["src/metadata.rs", "src/lib.rs: FlacReader::new_ext"]}
{"id": "C51", "title": "Error comparison and text", "statement": "Comparing errors with == is symmetric and transitive, equal format/unsupported errors carry equal messages, and an I/O error never equals anything, itself included. The displayed text says of which kind the error is, followed by its message, so that two errors that are not I/O errors display the same text exactly if they are ==. The description of a format error is its message; the description of an unsupported feature does not depend on the feature. Exactly the I/O errors have a cause, the error of the wrapped reader.", "quantifier": "all triples of errors", "why_tests_cant": "all triples", "anchors": ["src/error.rs: impl PartialEq for Error, impl Display for Error, Error::description, Error::cause"]}
{"id": "C52", "title": "Cursor and BufferedReader agree", "statement": "Reading through a Cursor and through a BufferedReader over the same bytes gives the same results for every sequence of operations up to the first failed bulk read.", "quantifier": "every byte string and operation sequence", "why_tests_cant": "unbounded operation sequences", "anchors": ["src/input.rs: impl ReadBytes for Cursor, impl ReadBytes for BufferedReader"]}
{"id": "C53", "title": "Blocks agree with streaminfo", "statement": "Every block decoded from a stream has the number of channels and a block size within the bounds that streaminfo() announces.", "quantifier": "every accepted stream", "why_tests_cant": "all streams", "anchors": ["src/frame.rs: read_next_or_eof", "src/lib.rs"]}
{"id": "C54", "title": "Sequential frame reading", "statement": "Calling read_next_or_eof repeatedly, passing any buffers, on the concatenation of any number of legal frames returns their blocks in order and then None.", "quantifier": "every sequence of legal frames and buffers", "why_tests_cant": "unbounded sequences", "anchors": ["src/frame.rs: FrameReader::read_next_or_eof"]}
{"id": "C55", "title": "Decoded samples fit the bit depth", "statement": "Every decoded sample fits in the number of bits per sample of its frame.", "quantifier": "every accepted frame", "why_tests_cant": "all inputs; predictive coding can leave the range", "anchors": ["src/subframe.rs: decode"]}
{"id": "C56", "title": "Frame sample rates are decoded as the format says", "statement": "The sample rate in a frame header is decoded to the rate that the format assigns to its code: one of eleven common rates, a number of kHz in 8 bits, a number of Hz in 16 bits, or a number of tens of Hz in 16 bits.", "quantifier": "all legal frame headers", "why_tests_cant": "no test file uses the codes with a separate field, and there are 2 * 65536 + 256 such rates in combination with all other header fields", "anchors": ["src/frame.rs: read_frame_header_or_eof (lines 278-289)"]}
{"id": "C57", "title": "Debug and release builds agree", "statement": "Whether the library is compiled with overflow checks and debug assertions (a debug build) or without them (a release build) is not observable: every operation on a buffered reader or a cursor that does not panic in the checked build returns the same result and leaves the reader in the same state in the unchecked build. In particular opening a stream and iterating over its metadata give the same results in both builds on every input, iterating over samples() on every input without 2^32 - 1 zero bits in a row, and so do the length and the stereo iterator of every decoded block.", "quantifier": "every reader state, every operation and sequence of operations, every input and options, any number of calls", "why_tests_cant": "tests run in one of the builds, on finitely many inputs; a wrapped counter or a skipped assertion in the other one shows only on the inputs that overflow", "anchors": ["Cargo.toml", "src/input.rs", "src/subframe.rs", "src/frame.rs", "src/metadata.rs", "src/lib.rs"]}
{"id": "C58", "title": "Decoding with any reader, without end and across errors", "statement": "A FrameReader over any implementation of ReadBytes reads bytes one by one and never looks ahead. Reading a frame returns None if the reader reports the end of the file for one of the first two bytes; it fails with the reader's own error as soon as the reader fails; otherwise the result depends on nothing but the bytes it has read. If the reader itself does not panic and delivers no run of 2^32 - 1 zero bits, no sequence of operations (byte reads, skips, frames, metadata blocks, and calls of the sample iterator and the metadata iterator) panics, also when the caller goes on after errors or the end of the file. This holds in particular for a BufferedReader over any source that honours the contract of io::Read, one that never ends or fails and recovers any number of times, unless it delivers about 2^29 zero bytes in a row.", "quantifier": "every implementation of ReadBytes and every state of it, every source including endless and repeatedly failing ones, any number of operations, all buffers", "why_tests_cant": "a test uses one particular reader and a finite input; the readers users can plug in, the places at which they fail, and the number of calls after a failure are unbounded", "anchors": ["src/input.rs: ReadBytes, BufferedReader", "src/frame.rs: FrameReader::read_next_or_eof", "src/crc.rs: Crc8Reader, Crc16Reader", "src/metadata.rs", "src/lib.rs: FlacReader, FlacSamples"]}
{"id": "C59", "title": "Progress and termination", "statement": "Every block that is read uses up at least 8 + 2 * channels bytes of the input and yields at most 20165 samples per byte used. Hence a loop that reads blocks until None or an error ends, and iterating over samples() ends, after at most 20165 samples per byte of the input, with None or an error, and yields None from then on.", "quantifier": "every input and chunking, at every position, every buffer, any number of blocks and calls", "why_tests_cant": "termination and amplification bounds are claims about all inputs; a test sees only files that someone made", "anchors": ["src/frame.rs: FrameReader::read_next_or_eof", "src/lib.rs: FlacReader::samples, FlacReader::into_samples, FlacSamples::next"]}
{"id": "C60", "title": "A truncated or interrupted stream yields a prefix", "statement": "If a stream is cut off or fails at any byte, then what can be read from the part before it is what would be read from the whole stream: if the part can be opened, so can the whole stream, with the same streaminfo, vendor string and tags, and the samples from the part, up to its end or error, are the first samples of the whole stream. An error other than an I/O error while opening the part is also what opening the whole stream gives.", "quantifier": "every stream, every point at which it is cut, every chunking, all options", "why_tests_cant": "the streams and the points of truncation are unbounded", "anchors": ["src/lib.rs: FlacReader::new_ext, FlacSamples::next", "src/frame.rs: FrameReader::read_next_or_eof", "src/input.rs: BufferedReader"]}
{"id": "C61", "title": "Every recording can be stored and read back", "statement": "For every recording of 8, 12, 16, 20 or 24 bits per sample, with one to eight channels or in one of the stereo modes, cut into at most 2^31 blocks of 1 to 65535 samples, there is a FLAC stream (given by a simple encoder that stores the samples verbatim) that opens with the given streaminfo and from which samples() yields the recording, interleaved, and then None.", "quantifier": "every list of blocks of samples that fit in the bit depth, every channel mode, every streaminfo that can be stored, every chunking of the source", "why_tests_cant": "a test uses finitely many recordings; completeness for all of them, with all block sizes and extreme sample values, needs a proof", "anchors": ["src/lib.rs: FlacReader::new, FlacReader::samples, FlacSamples::next", "src/frame.rs: FrameReader::read_next_or_eof", "src/subframe.rs: decode"]}
{"id": "C62", "title": "The source is asked only for what is needed", "statement": "The decoder never asks the wrapped reader for more bytes while bytes it already got are enough for what it returns: a frame is returned as soon as its last byte has been delivered, without another read. The bytes delivered and not used come next, without another read, and there are never more than 2048 of them. This holds for opening, blocks and samples, so that a live stream can be played without delay.", "quantifier": "every source that honours the contract of Read, every list of operations on it before, every opening option, every number of samples", "why_tests_cant": "a test fixes one chunking of one stream; that no call is made in vain must hold for each way in which a live source can split its bytes", "anchors": ["src/input.rs: BufferedReader", "src/frame.rs: FrameReader::read_next_or_eof", "src/lib.rs: FlacReader::new_ext, FlacSamples::next"]}
{"id": "C63", "title": "Size hints are honest", "statement": "The size hint of the tag iterator is exactly the number of tags that are still to come, after every number of calls. The hint of the metadata block reader is never more than the number of items it still yields and, when it has an upper bound, never less.", "quantifier": "every stream, every number of calls before the hint is asked for, any reader that never panics", "why_tests_cant": "collections preallocate by the hint and unsafe code may rely on it; that it is right for every stream and moment is not a test", "anchors": ["src/metadata.rs: Tags::size_hint, MetadataBlockReader::size_hint"]}
{"id": "C64", "title": "samples() and blocks() can be called again and again on one reader", "statement": "On one FlacReader, samples() and blocks() may be called as often as one likes, in any order and each used for any number of samples or blocks. Each use goes on with the first frame of which no sample has been yielded: the rest of a block of which some samples were yielded is lost when the iterator is dropped, but no frame is skipped or read twice, None is returned after the last frame, and the metadata stays as it is.", "quantifier": "every sequence of uses, with any numbers of samples and any buffers, every stream of legal frames, every chunking; for a single use every stream and every reader", "why_tests_cant": "interleavings of uses with positions inside blocks are unboundedly many", "anchors": ["src/lib.rs: FlacReader::samples, FlacReader::blocks, FlacSamples::next", "src/input.rs: impl ReadBytes for &mut R"]}
{"id": "C65", "title": "Opening a file by name decodes its contents", "statement": "FlacReader::open and open_ext return the error of the operating system as IoError if the file cannot be opened; otherwise the error, the metadata, the samples and the blocks are those of reading the bytes of the file from memory with the same options. open is open_ext with the default options.", "quantifier": "every file system, file name, file contents, options, number of samples and sequence of operations", "why_tests_cant": "every file and every way the operating system may split its reads", "anchors": ["src/lib.rs: FlacReader::open, FlacReader::open_ext"]}
{"id": "C66", "title": "I/O errors come from the reader", "statement": "Error::IoError is never made up by the decoder: whenever an operation, the opening of a stream, or an item of the metadata or sample iterator reports an I/O error, the last call of the reader's own methods failed with exactly this error, all calls before it succeeded, and the reader is not touched after it. With the buffered reader, the last call of the wrapped io::Read was made in this operation, and it failed with this error or it returned Ok(0), in which case the error is UnexpectedEof. Hence damaged data never yields an I/O error as long as the source delivers data.", "quantifier": "every implementation of ReadBytes, every io::Read that honours its contract, also after failures, every operation in every reachable state, all data", "why_tests_cant": "all readers and all data; a test sees only some error paths", "anchors": ["src/error.rs: Error, impl From<io::Error>", "src/input.rs: BufferedReader", "src/frame.rs: FrameReader::read_next_or_eof", "src/metadata.rs: MetadataBlockReader::next", "src/lib.rs: FlacReader::new_ext, FlacSamples::next"]}
{"id": "C67", "title": "read_into fills the buffer; uninitialised memory is never seen", "statement": "If read_into of the buffered reader or of a cursor returns Ok, every byte of the caller's buffer has been overwritten with the bytes that come next in the stream, whatever was in the buffer. If it returns Err, the buffered reader has written all bytes that were left to the front of the buffer and not touched the rest; a cursor has touched neither the buffer nor its position. Consequently the vectors of uninitialised memory that the metadata code lets read_into fill are never looked at before they are completely initialised: opening a stream and reading metadata is free of undefined behaviour, for every source that honours the contract of io::Read.", "quantifier": "every buffer of every size and content, every state of the reader, every chunking and failure of the source, with and without overflow checks", "why_tests_cant": "all chunkings, lengths and failure points; reading uninitialised memory usually goes unnoticed in a test", "anchors": ["src/input.rs: ReadBytes::read_into for BufferedReader and Cursor", "src/metadata.rs: read_vorbis_comment_block, read_application_block"]}
{"id": "C68", "title": "The width of pointers does not matter", "statement": "On platforms with 32-bit and with 64-bit pointers, in builds with and without overflow checks, the channels and samples of a decoded block, the iterator over its stereo samples, and the iterator over the samples of a stream yield the same. Asking a decoded block for a channel that it does not have panics, on all of them.", "quantifier": "every block returned by the decoder, all channel and sample numbers, every pointer width of at least 32 bits, every reader, any number of calls", "why_tests_cant": "tests run on one platform, with overflow checks, and on few blocks; the wrap-around occurs only for certain products", "anchors": ["src/frame.rs: Block::channel, Block::sample, Block::stereo_samples, StereoSamples", "src/lib.rs: FlacSamples::next"]}
{"id": "C69", "title": "The example programs decode files", "statement": "The example program decode_simple, on a valid file, writes a WAV file with the number of channels, sample rate and bits per sample of the streaminfo, and exactly the samples of the stream, in order; if the file breaks off with an error, it has written the samples of all frames before it and returns that error; it ends on every finite file. The example program decode writes the same on files with two channels and 16 bits per sample, and whenever it succeeds, on any file, decode_simple succeeds with the same format and the same samples up to reduction to 16 bits. Its unchecked writes stay within the room that it requested and fill it exactly.", "quantifier": "every valid file, every file that can be opened, every decoded block, any chunking of the file", "why_tests_cant": "the examples are not run by the tests; the unchecked writes must be in bounds for every block", "anchors": ["examples/decode_simple.rs: decode_file", "examples/decode.rs: decode_file"]}
{"id": "C70", "title": "Release builds do not panic", "statement": "In a build without overflow checks and debug assertions, reading frames, reading samples with the iterator, and every other operation on a reader never panics and never runs into undefined behaviour, on any input whatsoever, including the inputs with very long runs of zeros on which a build with overflow checks panics (C27). On a finite stream every call returns.", "quantifier": "every stream of fewer than 2^64 bytes, with any chunking and any error at the end; every reader that does not itself panic, endless ones included; any sequence of operations, whether or not earlier ones failed; any number of calls of the iterator", "why_tests_cant": "tests run with overflow checks; the inputs on which the builds differ have more than half a gigabyte; index bounds must hold for wrapped values, too", "anchors": ["src/bitstream.rs: Bitstream::read_unary", "src/frame.rs: FrameReader::read_next_or_eof", "src/subframe.rs: decode", "src/lib.rs: FlacSamples::next"]}
{"id": "C71", "title": "The example programs decode FLAC in Ogg and MP4 files", "statement": "The example program decode_ogg, on an Ogg file whose packets are those of the FLAC-to-Ogg mapping, with two-channel frames, writes a WAV file with the format of the streaminfo and exactly the samples of the frames, in order; anything after the metadata block in a header packet, and empty packets between frames, have no effect. The example program decode_mp4, on an MP4 track whose chunks contain the number of frames that the sample-to-chunk table prescribes, does the same for the frames of all chunks in order, wherever the chunks are, and whatever comes after them. On any other file they succeed or panic deliberately (a failed expect), they do not overflow, index out of bounds or loop forever.", "quantifier": "every list of packets, every table of chunks and every file content; the only exception is the arithmetic overflow of C27, for which there must be 2^32 - 1 zero bits in a row", "why_tests_cant": "the examples are not run by the tests; the sample-to-chunk table is run-length encoded with arbitrary gaps", "anchors": ["examples/decode_ogg.rs: decode_file, read_first_packet, decode_frame", "examples/decode_mp4.rs: decode_file, get_streaminfo, decode_frames", "src/metadata.rs: read_metadata_block, read_metadata_block_with_header"]}
{"id": "C72", "title": "What the other examples rely on", "statement": "Skipping bytes with an io::Cursor does not fail (comment in decode_ogg). After opening a stream from an io::Cursor, the position of the cursor obtained with into_inner is the size of the metadata (comment in bench_decode). The example program tags prints every tag of each file it is given, in order, as NAME=value after the name of the file, and nothing else; at the first file that cannot be opened it ends with a panic, with the tags of the files before it printed.", "quantifier": "every packet, every stream that can be opened, every Vorbis comment, every list of files", "why_tests_cant": "the examples are not run by the tests; how far the reader has read ahead depends on the size of the metadata", "anchors": ["examples/decode_ogg.rs: read_first_packet", "examples/bench_decode.rs: decode_file", "examples/tags.rs: main", "src/lib.rs: FlacReader::into_inner", "src/input.rs: Cursor::skip"]}
{"id": "C73", "title": "The fuzz targets find nothing", "statement": "Each of the four fuzz targets returns on all data: opening a stream, decoding all samples of a stream that can be opened, and decoding its first block do not panic and come to an end; and decoding the first block twice, into buffers filled with two different markers, gives the same outcome and the same samples, so that the assertion of the differential fuzz target never fails, nor can the stream fail to open the second time. This holds for builds with cfg(fuzzing), as used by cargo fuzz, in which checksums are not compared and the buffer has 31 bytes, and for builds without. The only difference it makes to frames is that those with wrong checksums are decoded as if the checksums were right.", "quantifier": "all data of any length; the only exception is the arithmetic overflow of C27, in a build with overflow checks, for which there must be 2^32 - 1 zero bits in a row; builds with and without cfg(fuzzing); all frames and all checksums, for the last sentence", "why_tests_cant": "fuzzing is a search that never ends; the targets are meant to hold for every input", "anchors": ["fuzz/fuzzers/decode_full.rs: go", "fuzz/fuzzers/decode_header.rs: go", "fuzz/fuzzers/decode_single_block.rs: go", "fuzz/fuzzers/diff.rs: go", "src/frame.rs: FrameReader::read_next_or_eof", "src/input.rs: CAPACITY", "src/frame.rs: cfg(fuzzing)"]}
{"id": "C74", "title": "Block time is the position in the stream", "statement": "Block::time() is documented as the sample number of the first sample of the block. In a stream whose frames are numbered as the format says, the time of every block is the number of samples per channel in the blocks before it. This holds for streams with a variable block size, and for all blocks of streams with a fixed block size but a shorter last one. For a shorter last block it does not hold: its time is the number of blocks before it times its own duration, from which, and the size of the other blocks, the position can be recovered.", "quantifier": "all streams of legal frames numbered by sample or by frame, of any length, and all sequences of reads from them", "why_tests_cant": "the number of frames and their sizes are unbounded; the tests compare samples, not times", "anchors": ["src/frame.rs: Block::time, FrameReader::read_next_or_eof, read_frame_header_or_eof"]}
{"id": "C75", "title": "Metadata blocks are reported as what they are", "statement": "Iterating over the metadata blocks of a stream, or reading one of them, yields for each block an item of the variant of MetadataBlock that belongs to its type: StreamInfo, Padding, Application, SeekTable, VorbisComment, CueSheet, Picture, or Reserved for all other types. This does not hold for seek tables, cue sheets and pictures, which are reported as Padding of their length; the variants for them never occur.", "quantifier": "all byte streams, block types and lengths; complete metadata with any number of blocks", "why_tests_cant": "all types, lengths and contents of blocks", "anchors": ["src/metadata.rs: MetadataBlock, read_metadata_block, MetadataBlockReader"]}
{"id": "C76", "title": "A buffer allocated up front is enough", "statement": "As the documentation of StreamInfo::max_block_size says, decoding does not allocate if a buffer with room for max_block_size times channels samples is passed in, and the buffer of every block is passed in for the next. This holds if no frame is larger than the streaminfo block announces, but larger frames are accepted, and then a larger buffer is allocated. A buffer with room for 65535 * 8 samples is enough for every stream.", "quantifier": "all sequences of frames of any length and all buffers; all readers, for the last sentence", "why_tests_cant": "unbounded streams; all combinations of block sizes and channel counts", "anchors": ["src/metadata.rs: StreamInfo::max_block_size", "src/frame.rs: FrameReader::read_next_or_eof, ensure_buffer_len"]}
{"id": "C77", "title": "The samples are as many, and have as many bits, as announced", "statement": "The sample iterator yields StreamInfo::samples times StreamInfo::channels samples and then None, and every sample fits in StreamInfo::bits_per_sample bits. This holds if the frames keep to what the streaminfo block announces, but claxon does not compare the two: a stream with fewer or more samples than announced is read to its end without an error, and so is a stream with frames that have more bits per sample than announced.", "quantifier": "all streams with any metadata blocks and any number of frames, and all byte sources that deliver them", "why_tests_cant": "unbounded streams of any number of frames; files with wrong headers are not among the test samples", "anchors": ["src/metadata.rs: StreamInfo::samples, StreamInfo::bits_per_sample", "src/lib.rs: FlacSamples::next", "src/frame.rs: FrameReader::read_next_or_eof"]}
{"id": "C78", "title": "Errors tell apart what is invalid and what is not implemented", "statement": "Of a frame in the FLAC format, the three features that claxon does not implement (partitions of the residual that are not Rice coded, linear predictors with a negative shift, frame headers that leave the number of bits per sample to the streaminfo block) yield Error::Unsupported, for the first such feature in the frame; every other frame is decoded. So a FormatError means that the input does not begin with a frame of the format. Reserved values in the frame header and in the subframes yield a FormatError, as does the metadata block type 127; application and Vorbis comment blocks above 10 MiB yield Unsupported when the stream is opened. The samples before a frame that is not supported are delivered, then the error, then None.", "quantifier": "all frames of the format with any combination of these features, all positions of reserved values, all streams with any frames before, any metadata blocks before, and all byte sources", "why_tests_cant": "unbounded set of frames and positions; the features that are not implemented do not occur in the test samples", "anchors": ["src/error.rs: Error::FormatError, Error::Unsupported", "src/frame.rs: FrameReader::read_next_or_eof", "src/subframe.rs: decode", "src/metadata.rs: read_metadata_block", "src/lib.rs: FlacReader::new, FlacSamples::next"]}
{"id": "C79", "title": "The metadata does not influence the audio", "statement": "Two streams with any metadata blocks, opened with or without the wish to read the Vorbis comment, that have the same bytes after the metadata, give the same results of every operation on blocks() and of every call of the samples() and into_samples() iterators, errors included. So editing the tags of a file does not change what is decoded.", "quantifier": "all pairs of lists of metadata blocks, all bytes after them (frames or not), all byte sources and I/O errors, all reader options with metadata_only off, all sequences of operations", "why_tests_cant": "quantifies over all pairs of streams and all sequences of operations", "anchors": ["src/lib.rs: FlacReader::new_ext, FlacReader::blocks, FlacReader::samples, FlacReader::into_samples", "src/frame.rs: FrameReader::read_next_or_eof"]}
{"id": "C80", "title": "What follows does not influence what came before", "statement": "Blocks are decoded from a part of the stream at its beginning; if the stream is changed after this part, or goes on in another way, or fails there, the blocks, their samples and the position after them stay the same. In particular all samples of the frames at the beginning of a stream are delivered, whatever follows; if at least two bytes follow that do not begin with the sync code, such as an ID3v1 tag, then the next result is a FormatError, and then None.", "quantifier": "all streams, all numbers of blocks, all continuations and I/O errors", "why_tests_cant": "quantifies over all pairs of streams with a common beginning", "anchors": ["src/frame.rs: FrameReader::read_next_or_eof", "src/lib.rs: FlacSamples::next"]}
{"id": "C81", "title": "Every error has its reason", "statement": "Reading a frame fails with a FormatError or an Unsupported error exactly if the input begins with something that a decoder has to refuse: there is a list of reasons (sync code, reserved values, coded numbers, block sizes, checksums, wasted bits, predictor orders, residuals, features that are not implemented), each with its error, and this error is the one that is returned. At most one reason applies to an input, and none if it begins with a frame. If no reason applies and the input does not begin with a frame, nor with more zeros in a row than can be counted (C85), then it has ended too early, and the error is the one of the source, or UnexpectedEof (None if there are fewer than two bytes).", "quantifier": "all inputs, all readers and all ways to deliver the input, all buffers", "why_tests_cant": "an equivalence over all byte sequences, in both directions: no input fails without a reason from the list, and none with a reason is accepted", "anchors": ["src/frame.rs: FrameReader::read_next_or_eof, read_frame_header_or_eof, read_var_length_int", "src/subframe.rs: decode, read_subframe_header, decode_residual, decode_fixed, decode_lpc", "src/error.rs: Error"]}
{"id": "C82", "title": "Every refusal to open a stream has its reason", "statement": "Opening a stream, or reading a metadata block, fails with a FormatError or an Unsupported error exactly if the input begins with something that is to be refused: there is a list of reasons (marker, ID3 tag, values in the streaminfo, lengths of blocks, UTF-8, separators and names in comments, numbers of comments, missing or repeated blocks, blocks of more than 10 MiB), each with its error, and this error is the one that is returned. At most one reason applies to an input, and none if it begins with the metadata that the options ask for. If no reason applies and the stream cannot be opened, then it has ended too early, and the error is the one of the source, or UnexpectedEof.", "quantifier": "all inputs, all ways to deliver them, all options", "why_tests_cant": "an equivalence over all byte sequences, in both directions: no stream is refused without a reason from the list, and none with a reason is opened", "anchors": ["src/lib.rs: FlacReader::new_ext, read_stream_header", "src/metadata.rs: read_metadata_block_with_header, read_metadata_block, read_streaminfo_block, read_vorbis_comment_block, read_application_block", "src/error.rs: Error"]}
{"id": "C83", "title": "No undefined behaviour, and no panic but one", "statement": "Whatever the data are, and however long: in a build with overflow checks, every operation on a reader (reading bytes, skipping, reading frames and metadata blocks) and every call of the sample iterator returns, or panics with the arithmetic overflow in counting 2^32 zeros (which only reading a frame can do). There are no other panics, no access out of bounds, no undefined behaviour, and no endless loop, also when the reader is used after errors and after such a panic. The iterator over stereo samples, which indexes without checks, stays within the block, for every decoded block, in every build and with every pointer width.", "quantifier": "all data, every reader that does not panic itself and every io::Read that honours its contract, endless ones included, every sequence of operations, any number of calls; every decoded block", "why_tests_cant": "absence of undefined behaviour over all inputs and all histories, including inputs of more than half a gigabyte", "anchors": ["src/input.rs: BufferedReader, Bitstream::read_unary", "src/frame.rs: FrameReader::read_next_or_eof, Block::stereo_samples, StereoSamples::next", "src/lib.rs: FlacSamples::next", "src/metadata.rs: read_metadata_block"]}
{"id": "C84", "title": "The decoder is the function given by the specification", "statement": "What a client gets from an input is completely determined by the format. An input that begins with metadata, as far as the options ask for them, is opened, with that streaminfo, vendor string and tags; what is to be refused is refused with its error; and an input that ends before that gives the error of the source or UnexpectedEof. After the metadata, as long as the input goes on with a frame, there is a block with the time and the channels of that frame; the first thing that is to be refused gives its error; more zeros in a row than can be counted (C85) give the overflow of C27; the end (with at most one byte left) gives None; and a frame that is cut off gives the error of the source or UnexpectedEof. The sample iterator yields the samples of these blocks, then the error if there is one, then None for ever. A reader that was opened for the metadata only panics instead when it is asked for samples (C46). Every input is covered, and has one outcome only.", "quantifier": "all byte strings, whether the source ends or fails after them, all options, every source that honours the contract, any number of calls (after an overflow only the call that panics is described)", "why_tests_cant": "a complete input-output relation over all inputs, valid or not", "anchors": ["src/lib.rs: FlacReader::new_ext, FlacReader::samples, FlacReader::into_samples, FlacSamples::next", "src/frame.rs: FrameReader::read_next_or_eof", "src/metadata.rs: read_metadata_block"]}
{"id": "C85", "title": "Exactly when reading a frame panics", "statement": "In a build with overflow checks, reading a frame panics exactly if the input begins with a frame in which, after a header, subframes and parts of a subframe as the format prescribes them, there are more zeros in a row than a 32-bit counter can count: 2^32 zeros in the quotient of a Rice code, or 2^32 - 1 zeros and one more bit in the number of wasted bits. In all other cases, it returns. What panics is not a frame, and is not refused for any other reason; it is longer than half a gigabyte, and whatever follows makes no difference.", "quantifier": "all byte strings, however long, whether the source ends or fails after them, every source that honours the contract, every buffer", "why_tests_cant": "an exact condition over all inputs; those in question are larger than half a gigabyte", "anchors": ["src/input.rs: Bitstream::read_unary", "src/subframe.rs: read_subframe_header, decode_rice_partition, decode_rice2_partition", "src/frame.rs: FrameReader::read_next_or_eof"]}
{"id": "C86", "title": "What a build without overflow checks decodes", "statement": "A build without overflow checks reads bits and frames exactly as one with them does, except that zeros are counted modulo 2^32. It reads every frame in the same way unless there are more zeros in a row than can be counted (C85). It decodes exactly the frames of the format without the limit on the number of zeros in a row, where of the number of wasted bits only the remainder modulo 2^32 counts: every such frame at the front of the input is decoded, to what it denotes modulo 2^32, and nothing else is decoded. On every complete input, the sample iterator yields the samples of these frames, then an error unless less than two bytes are left, and then None as often as one calls; this agrees with a build with overflow checks wherever that does not panic. (So it decodes more than the frames of the format: one with 2^32 wasted bits per sample is decoded as if there were none.)", "quantifier": "all byte strings of less than 2^64 bytes, every source that honours the contract, every sequence of bit-level operations, every buffer", "why_tests_cant": "a statement about all inputs; those on which builds differ are larger than half a gigabyte, and tests run with overflow checks", "anchors": ["src/input.rs: Bitstream::read_unary", "src/subframe.rs: read_subframe_header", "src/frame.rs: FrameReader::read_next_or_eof", "src/lib.rs: FlacSamples::next"]}
{"id": "C87", "title": "After an error, reading can go on", "statement": "After an error in a frame (`FormatError` or `Unsupported`), the reader stands right behind the bytes that are the reason for the error (C81), at least two bytes further. A client that goes on calling `read_next_or_eof` after errors therefore gets, from a stream of frames with damaged or foreign parts in between, the samples of every frame and one error for each of the other parts, in order; in particular, a frame with nothing but a wrong checksum at its end costs that frame and no other. On any input, such a client is told of the end by `None` after at most one call for every two bytes, and from then on at each call.", "quantifier": "all byte strings, every sequence of frames and parts that are to be refused, every source that honours the contract and (for the end) does not fail, all buffers, any number of calls", "why_tests_cant": "damage can be of any kind and anywhere in a stream of any length; that a loop over a damaged file ends is a statement about all files", "anchors": ["src/frame.rs: FrameReader::read_next_or_eof, read_frame_header_or_eof", "src/crc.rs: Crc16Reader", "src/input.rs: Bitstream, BufferedReader"]}
{"id": "C88", "title": "The example programs treat their files one by one", "statement": "decode_simple goes through all the files it is given, whatever is wrong with some of them, and prints a line about each: that it is done, or the kind of the error and its message. decode, on files of two channels and 16 bits, prints for each that it is done, or that there are no files to decode; at the first file that it cannot handle it ends as it does on this file alone, with the earlier files decoded and the later ones untouched. decode_ogg and decode_mp4 do the same without printing anything. In all four, the WAV file of each file that was decoded has exactly what it has if the program is run with this file alone (unless a later file has the same name up to the extension), and no other WAV files are touched.", "quantifier": "all lists of files, all contents of these files, all WAV files that were there before", "why_tests_cant": "whether a file affects the treatment of another depends on all files before it, and any of them may be broken in any way", "anchors": ["examples/decode_simple.rs: main, decode_file", "examples/decode.rs: main, decode_file", "examples/decode_ogg.rs: main", "examples/decode_mp4.rs: main"]}
{"id": "C89", "title": "What the benchmark programs do", "statement": "bench_decode, on a stream with at least one frame and the number of samples in its streaminfo, makes five runs through all blocks of the stream; it divides by the number of samples of each block, which is never zero, so all times can be compared, and by the number of samples in the streaminfo times the number of channels, which does not overflow. It panics deliberately if the file cannot be opened, has an error in it, or lacks the number of samples. Without frames, an index is out of bounds. bench_metadata succeeds if there is at least one file and all of them have all tags that it looks up, in any case; it panics deliberately if a tag is missing.", "quantifier": "all byte strings of less than 2^57 bytes; all lists of files with metadata", "why_tests_cant": "the outcome is determined for every file, valid or not; tests run a few valid files", "anchors": ["examples/bench_decode.rs: decode_file, print_stats, main", "examples/bench_metadata.rs: main"]}
{"id": "C90", "title": "What the benchmarks in the benches directory do", "statement": "A benchmark calls read_next_or_eof once per iteration and recycles the buffer. At the end of the stream it opens the stream in memory again, which cannot fail, so the uninitialised reader that is put in its place for a moment is never dropped; then it decodes the same blocks again, however often. What it reports is the total number of bytes of the decoded blocks, at the bit depth in the streaminfo rounded down to whole bytes, divided by the number of blocks. It panics deliberately if the file cannot be opened, and in the first iteration after the last block before an error in the stream; it divides by zero if no block was decoded; and if more than 4 GiB are decoded the total overflows: with overflow checks it panics, and without them the reported number is wrong.", "quantifier": "all byte strings; all numbers of iterations below 2^64; builds with and without overflow checks", "why_tests_cant": "the number of iterations is chosen by the test harness and the machine's speed; the overflow needs more than 4 GiB of samples", "anchors": ["benches/testsamples.rs: refresh_reader, bench_decode"]}
{"id": "C91", "title": "What is read after an I/O error", "statement": "When a call fails with an I/O error of the wrapped reader and the user goes on reading, what comes next is exactly the bytes of the wrapped reader's last successful call, all of them once more from the first on and at most 2048, except that bytes which the failing calls have written to the buffer take the place of the first ones; then what the wrapped reader delivers next. The repeated bytes are handed out without another call of the wrapped reader. If the error is UnexpectedEof, nothing is repeated. Hence a wrapped reader that fails only when its last call before delivered nothing never makes the decoder see a byte twice.", "quantifier": "every io::Read that honours its contract, every sequence of reads, skips, frames and metadata blocks before, whichever of them failed, any operation that fails", "why_tests_cant": "all histories of successes and failures; the contents of a private buffer after an error", "anchors": ["src/input.rs: BufferedReader, read_u8, read_u8_or_eof, read_into, skip"]}
{"id": "C92", "title": "Files with excessively large metadata blocks are rejected", "statement": "The documentation of FlacReader::new says: files that claim to contain excessively large metadata blocks (according to the changelog, more than 10 MiB) are rejected with Error::Unsupported. This does not hold: a stream with a larger picture, padding, cue sheet, seek table or reserved block is opened. It holds for application and Vorbis comment blocks that the options ask to read, the first one included, however short the file is; Unsupported is returned when opening a stream for no other reason; and blocks of all other types make the reader request no memory, whatever length they announce.", "quantifier": "all byte streams, options, block types and announced lengths, all byte sources", "why_tests_cant": "all combinations of blocks, lengths and options; absence of a limit only shows for huge blocks", "anchors": ["src/lib.rs: FlacReader::new, FlacReader::new_ext", "src/metadata.rs: read_metadata_block, read_vorbis_comment_block, read_application_block"]}
{"id": "C93", "title": "The examples in the documentation do what they say", "statement": "The first example in the documentation of the crate (and in the readme) computes the root mean square of the samples of a FLAC file. This does not hold for files with 2^31 samples or more: the samples are counted in an i32, so the example panics with an overflow, or in builds without overflow checks divides by the number of samples modulo 2^32, taken as a signed number. For shorter files it computes the root mean square. The second example writes a WAV file with exactly the samples of the stream and the format in its streaminfo; on any file it writes what the example program decode_simple writes and panics where that returns an error. The third example prints the values of all ARTIST tags, upper or lower case, in the order of the file. On files that cannot be opened, all of them panic.", "quantifier": "all files with complete streams (and, for the second one, all files), all byte sources, any arithmetic of floating-point numbers, builds with and without overflow checks", "why_tests_cant": "the documentation tests run on one file; the overflow takes hours of audio (2^31 samples are about 7 hours of stereo at 44.1 kHz)", "anchors": ["src/lib.rs: crate documentation, FlacReader::open, FlacReader::samples, FlacReader::get_tag", "readme.md: Example"]}
{"id": "C94", "title": "A frame reader yields at least one element", "statement": "The documentation of FrameReader::new says that the reader will yield at least one element. This does not hold: read_next_or_eof returns None on its first call if the input is empty, or has one byte only. It returns None exactly then, that is, if the source ends (without an I/O error) before the second byte; and the same is true of the first call of the sample iterator: there is a sample or an error unless the source ends before the second byte of the first frame. (That builds without overflow checks behave in the same way is part of C86.)", "quantifier": "all inputs, faults of the source, byte sources and buffers", "why_tests_cant": "all inputs; an early end of the stream that is not reported looks like a short file", "anchors": ["src/frame.rs: FrameReader::new, FrameReader::read_next_or_eof", "src/lib.rs: FlacSamples::next"]}
{"id": "C95", "title": "The tag iterators on any list of comments", "statement": "Tags::new and GetTag::new are public and take any strings with any positions. Call number k of Tags::next gives the text before and the text after the position in comment number k if an ASCII character is there; otherwise that call panics and later calls continue with the next comment. GetTag::next gives in order the values of the comments whose name equals the given one without regard to the case of ASCII letters; a call panics exactly when it comes to a comment whose position is not a character boundary, or to one with the given name that has no ASCII character there, and later calls continue after it. After the last comment both return None for ever.", "quantifier": "all lists of (String, usize) pairs, all names to look for, all numbers of calls", "why_tests_cant": "all strings and positions; the library itself only ever passes positions of '=' signs", "anchors": ["src/metadata.rs: Tags, GetTag"]}
