{"id": "C01", "title": "u-law codes survive decode/encode", "statement": "Decoding any u-law byte with the library and encoding the result again gives back the same byte (the one redundant code, negative zero 0x7F, becomes positive zero 0xFF), so re-saving a u-law file is loss-free after the first generation.", "quantifier": "every one of the 256 u-law bytes; every 16-bit sample for the idempotence form", "why_tests_cant": "The claim is about the whole code space together with the segment search and bias arithmetic; a wrong segment boundary affects only a few codes, which sampled tests miss.", "anchors": ["libaudiofile/g711.c:linear2ulaw", "libaudiofile/g711.c:ulaw2linear", "libaudiofile/g711.c:search"]}
{"id": "C02", "title": "u-law encode/decode is monotone with bounded error", "statement": "For every 16-bit sample the value read back after u-law compression is the nearest representable level up to the documented step of its segment (error at most half the segment step, or clipping at +-32124), the sign is preserved and larger samples never decode to smaller values.", "quantifier": "all 65536 samples and all pairs of samples", "why_tests_cant": "Monotonicity quantifies over all pairs; error bounds must hold at every segment edge.", "anchors": ["libaudiofile/g711.c:linear2ulaw", "libaudiofile/g711.c:ulaw2linear"]}
{"id": "C03", "title": "A-law codes survive decode/encode", "statement": "Decoding any A-law byte and encoding the result again gives back the same byte.", "quantifier": "every one of the 256 A-law bytes", "why_tests_cant": "As for u-law.", "anchors": ["libaudiofile/g711.c:linear2alaw", "libaudiofile/g711.c:alaw2linear"]}
{"id": "C04", "title": "A-law encode/decode error bound", "statement": "For every 16-bit sample but -1..-7 the value read back after A-law compression has the sample's sign and lies within half a quantiser step of it (plus the encoder's offset of 8 for negative samples), and larger samples never read back as smaller values. Exactly the samples -1..-7 violate the bound one expects of every sample: each reads back as -248.", "quantifier": "all 65536 samples", "why_tests_cant": "The failing inputs are seven values next to zero; tests with sine waves at a few amplitudes tolerate them.", "anchors": ["libaudiofile/g711.c:linear2alaw", "libaudiofile/g711.c:search"]}
{"id": "C05", "title": "Header integer fields round-trip in either byte order", "statement": "A 16-, 32- or 64-bit header field written by the library in a file format's byte order and read back in the same byte order is unchanged, and the bytes on disk are those of the declared order independently of the host order.", "quantifier": "all values, both host orders, both file orders", "why_tests_cant": "Host order is fixed on any test machine, and value space is 2^64.", "anchors": ["libaudiofile/FileHandle.cpp:_AFfilehandle::readU16..writeDouble", "libaudiofile/byteorder.h:byteswapInt16", "libaudiofile/byteorder.h:byteswapInt32", "libaudiofile/byteorder.h:byteswapInt64"]}
{"id": "C06", "title": "Byte-order conversion of samples is an involution", "statement": "Reading samples whose byte order differs from the host gives the same values as if the orders were the same; swapping twice is the identity for 1-, 2-, 3-, 4- and 8-byte samples and never moves bytes across samples.", "quantifier": "all byte buffers of every length", "why_tests_cant": "Quantifies over arbitrary buffers and frame counts.", "anchors": ["libaudiofile/modules/SimpleModule.h:SwapModule", "libaudiofile/byteorder.h"]}
{"id": "C07", "title": "24-bit packing is lossless", "statement": "Every 24-bit sample, signed or unsigned, stored packed in three bytes and exposed to the user in four bytes comes back unchanged, and unpacking sign- (or zero-) extends.", "quantifier": "all 24-bit values, both signs, both byte orders, any number of samples", "why_tests_cant": "2^24 values times signedness and order; sign-extension errors appear only for negative values.", "anchors": ["libaudiofile/modules/SimpleModule.h:Expand3To4Module", "libaudiofile/modules/SimpleModule.h:Compress4To3Module"]}
{"id": "C08", "title": "Integer width conversion: widen then narrow is identity; narrow is floor", "statement": "Converting samples to a wider integer format and back returns the original samples; narrowing an n-bit sample to m bits gives floor(x / 2^(n-m)), stays in range, and conversion is monotone.", "quantifier": "all sample values of every width pair among 8,16,24,32 bits", "why_tests_cant": "Value space up to 2^32 per pair of widths.", "anchors": ["libaudiofile/modules/SimpleModule.h:ConvertInt", "libaudiofile/modules/SimpleModule.cpp"]}
{"id": "C09", "title": "Signed/unsigned conversion is a bijection", "statement": "Converting between two's-complement and unsigned samples of the same width offsets by exactly half the range, preserves order, and the two conversions are mutually inverse.", "quantifier": "all sample values of 8,16,24,32-bit width", "why_tests_cant": "Value space up to 2^32.", "anchors": ["libaudiofile/modules/SimpleModule.h:ConvertSign"]}
{"id": "C10", "title": "Float-to-integer conversion saturates", "statement": "Whatever floating-point value a sample has, NaN excepted, converting to an integer format whose mapping has minClip < maxClip yields a value in [minClip,maxClip]; values beyond become the clip values; values already in range are off by less than one unit; conversion is monotone; integer conversions clip likewise. NaN is not clipped and converting it is undefined behaviour; a mapping with minClip >= maxClip, which means no clipping elsewhere, makes the result constant.", "quantifier": "all finite sample values and all PCM mappings with positive slopes", "why_tests_cant": "Reals are infinite; extreme values matter.", "anchors": ["libaudiofile/modules/SimpleModule.h:ConvertFloatToIntClip", "libaudiofile/modules/SimpleModule.h:Transform", "libaudiofile/modules/SimpleModule.h:Clip"]}
{"id": "C11", "title": "Channel conversion uses the documented matrix", "statement": "With no explicit matrix: mono to stereo copies, mono/stereo to four channels feeds the front pair and silences the rest, stereo to mono is the mean, four to one is half the sum and four to two front plus rear, whenever that fits the sample type, other pairs of counts keep the common channels, drop surplus inputs and silence surplus outputs; the entry [virtual][file] of an explicit matrix is the weight in both directions; equal channel counts leave every sample unchanged; each output frame depends only on the same input frame. Four channels to one or two at full scale: the sum leaves the sample type before clipping, undefined behaviour.", "quantifier": "all frames, all channel counts, all frame counts", "why_tests_cant": "Any number of channels and frames.", "anchors": ["libaudiofile/modules/SimpleModule.cpp:ApplyChannelMatrix", "libaudiofile/modules/SimpleModule.cpp:initDefaultMatrix"]}
{"id": "C12", "title": "Reading is independent of how it is split into calls", "statement": "For an open file, any sequence of afReadFrames calls delivers exactly consecutive pieces of one fixed frame sequence: the concatenation of the results equals what one big call delivers, for uncompressed and block-compressed data alike.", "quantifier": "all files, all sequences of request sizes", "why_tests_cant": "Infinitely many call sequences; buffering bugs show only for particular alignments of request sizes with the 1024-frame chunk and the codec block.", "anchors": ["libaudiofile/data.cpp:afReadFrames", "libaudiofile/modules/RebufferModule.cpp:runPull", "libaudiofile/modules/BlockCodec.cpp:runPull", "libaudiofile/modules/PCM.cpp:runPull"]}
{"id": "C13", "title": "Writing is independent of how it is split into calls", "statement": "The bytes of audio data and the frame count of the finished file depend only on the concatenation of the frames passed to afWriteFrames, not on how they were divided into calls.", "quantifier": "all frame sequences, all divisions into calls", "why_tests_cant": "Infinitely many divisions.", "anchors": ["libaudiofile/data.cpp:afWriteFrames", "libaudiofile/modules/RebufferModule.cpp:runPush", "libaudiofile/modules/BlockCodec.cpp:runPush"]}
{"id": "C14", "title": "Seek then read", "statement": "After afSeekFrame to any frame n of the track, afReadFrames delivers the frames from n on, whatever was read or sought before, for uncompressed, G.711 and block-compressed tracks.", "quantifier": "all histories of reads and seeks, all targets", "why_tests_cant": "Histories are unbounded; block-codec seeks depend on n modulo the block length.", "anchors": ["libaudiofile/format.cpp:afSeekFrame", "libaudiofile/modules/ModuleState.cpp:reset", "libaudiofile/modules/BlockCodec.cpp:reset1", "libaudiofile/modules/RebufferModule.cpp:reset1", "libaudiofile/data.cpp:afReadFrames"]}
{"id": "C15", "title": "Position and frame-count accounting", "statement": "afTellFrame always equals the number of frames delivered or accepted since the start or last seek; it stays within 0..frame count; afSeekFrame returns the new position.", "quantifier": "all call histories", "why_tests_cant": "Unbounded histories.", "anchors": ["libaudiofile/format.cpp:afSeekFrame", "libaudiofile/format.cpp:afTellFrame", "libaudiofile/data.cpp"]}
{"id": "C16", "title": "Seeking past the end", "statement": "afSeekFrame beyond the last frame of a non-empty track goes to the last frame, from which reading yields that frame and then the end, whatever calls came before. On an empty track it goes to -1, and reading then returns header bytes (uncompressed) or aborts (block codecs).", "quantifier": "all frame counts, all targets", "why_tests_cant": "Edge targets on edge lengths.", "anchors": ["libaudiofile/format.cpp:afSeekFrame"]}
{"id": "C17", "title": "afSyncFile is transparent", "statement": "In the shipped build, afSyncFile at any point of a history does not change the file that is finally closed: G.711 always; uncompressed tracks if every sync comes below 2 GiB of file position; block codecs if every sync comes at a whole number of packets. Otherwise it does: an uncompressed track synced between 2 and 4 GiB loses every later frame, one synced just above 4 GiB has its beginning overwritten by the next frames, and a block codec synced with a packet pending writes other audio data, a wrong size or over the header.", "quantifier": "all write histories with sync calls anywhere", "why_tests_cant": "Needs all alignments of sync points relative to blocks.", "anchors": ["libaudiofile/openclose.cpp:afSyncFile", "libaudiofile/modules/ModuleState.cpp:sync", "libaudiofile/modules/BlockCodec.cpp:sync1", "libaudiofile/modules/RebufferModule.cpp:sync1", "libaudiofile/modules/FileModule.cpp:write"]}
{"id": "C18", "title": "Uncompressed write/read is bit-exact", "statement": "For every uncompressed integer or floating file format, the frames read back are the frames written, for every channel count, width and byte order.", "quantifier": "all frame sequences, all PCM formats", "why_tests_cant": "Whole sample space times formats times lengths.", "anchors": ["libaudiofile/modules/PCM.cpp", "libaudiofile/modules/ModuleState.cpp:arrange", "libaudiofile/data.cpp"]}
{"id": "C19", "title": "IMA ADPCM decoder tracks the encoder", "statement": "Decoding the nibbles the IMA encoder produced reproduces exactly the encoder's own running reconstruction, so errors never accumulate; the step index stays in 0..88 and values in the 16-bit range.", "quantifier": "all sample sequences, all starting states", "why_tests_cant": "State depends on the entire history.", "anchors": ["libaudiofile/modules/IMA.cpp:encodeSample", "libaudiofile/modules/IMA.cpp:decodeSample"]}
{"id": "C20", "title": "IMA ADPCM error is bounded by the step", "statement": "Each sample the IMA encoder produces is within the current quantiser step bound of the input unless the step saturates.", "quantifier": "all samples and states", "why_tests_cant": "State space 89*65536*65536.", "anchors": ["libaudiofile/modules/IMA.cpp:encodeSample"]}
{"id": "C21", "title": "IMA blocks: sizes and headers are consistent", "statement": "Every encoded block has exactly bytesPerPacket bytes and decodes to exactly framesPerPacket frames, whose values are the encoder's running reconstruction of that block (QuickTime layout: of the same frames; WAVE layout: the state before the block followed by the reconstruction of all but the block's last frame, i.e. one frame late with the last frame lost).", "quantifier": "all blocks, both layouts, mono and stereo", "why_tests_cant": "Block contents are arbitrary.", "anchors": ["libaudiofile/modules/IMA.cpp:encodeBlockWAVE", "libaudiofile/modules/IMA.cpp:decodeBlockWAVE", "libaudiofile/modules/IMA.cpp:encodeBlockQT", "libaudiofile/modules/IMA.cpp:decodeBlockQT"]}
{"id": "C22", "title": "Malformed ADPCM blocks are handled safely", "statement": "Decoding an ADPCM block that is long enough for its frames stays within the codec's tables and yields 16-bit samples exactly when the indices in its header do: the step index of every channel is at most 88 (IMA, both layouts), the predictor index of every channel is below the number of coefficient pairs (MS ADPCM). The library checks neither, nor that the block is long enough, that there are at most two channels or that the number of frames is even, so hostile files make it leave its arrays.", "quantifier": "all block contents", "why_tests_cant": "Adversarial inputs.", "anchors": ["libaudiofile/modules/IMA.cpp:decodeBlockWAVE", "libaudiofile/modules/IMA.cpp:decodeBlockQT", "libaudiofile/modules/MSADPCM.cpp:decodeBlock"]}
{"id": "C23", "title": "MS ADPCM decoder tracks the encoder", "statement": "Decoding a block the MS ADPCM encoder produced reproduces the encoder's own reconstruction; delta stays at least 16 and samples within 16-bit range.", "quantifier": "all sample sequences, coefficients and starting states", "why_tests_cant": "History-dependent state.", "anchors": ["libaudiofile/modules/MSADPCM.cpp:encodeSample", "libaudiofile/modules/MSADPCM.cpp:decodeSample", "libaudiofile/modules/MSADPCM.cpp:encodeBlock", "libaudiofile/modules/MSADPCM.cpp:decodeBlock"]}
{"id": "C24", "title": "Sample rate survives the 80-bit AIFF encoding", "statement": "A sample rate written to an AIFF COMM chunk and read back is the same number.", "quantifier": "all finite doubles representable in the format", "why_tests_cant": "2^64 doubles.", "anchors": ["libaudiofile/extended.c:_af_convert_to_ieee_extended", "libaudiofile/extended.c:_af_convert_from_ieee_extended"]}
{"id": "C25", "title": "Miscellaneous chunk is a byte stream", "statement": "afReadMisc/afWriteMisc/afSeekMisc on a chunk, with any history of calls without negative seek offsets, behave as read/write/seek on a fixed-size byte array: reads return what was last written at those positions, other chunks are unaffected, and the position never leaves the chunk. A negative offset is accepted, and the next read or write then goes outside the buffer.", "quantifier": "all histories of misc operations on all chunks", "why_tests_cant": "Unbounded histories.", "anchors": ["libaudiofile/Miscellaneous.cpp:afReadMisc", "libaudiofile/Miscellaneous.cpp:afWriteMisc", "libaudiofile/Miscellaneous.cpp:afSeekMisc"]}
{"id": "C26", "title": "Markers: last set wins, others untouched", "statement": "afGetMarkPosition returns what afSetMarkPosition last set for that id (negative positions are stored as 0), other markers are unchanged, unknown ids and read-only files change nothing.", "quantifier": "all histories of marker operations", "why_tests_cant": "Unbounded histories.", "anchors": ["libaudiofile/Marker.cpp", "libaudiofile/Track.cpp:getMarker"]}
{"id": "C27", "title": "Loops: last set wins, others untouched", "statement": "Loop start/end/count/mode/track getters return the last value set; other loops and other fields are unchanged; invalid modes or counts are refused without effect.", "quantifier": "all histories", "why_tests_cant": "Unbounded histories.", "anchors": ["libaudiofile/Loop.cpp"]}
{"id": "C28", "title": "Instrument parameters: last valid set wins", "statement": "afGetInstParams returns the last valid value set for a parameter; values the format declares invalid are refused and leave the old value; other parameters are unaffected.", "quantifier": "all histories, all formats with instruments", "why_tests_cant": "Unbounded histories and per-format validity.", "anchors": ["libaudiofile/Instrument.cpp", "libaudiofile/AIFF.cpp:isInstrumentParameterValid", "libaudiofile/WAVE.cpp:isInstrumentParameterValid"]}
{"id": "C29", "title": "Parameter/value lists behave as arrays", "statement": "A value, type or parameter stored with AUpvset* at an index is what the matching AUpvget* returns until it is set again; out-of-range indices, NULL lists and values for unknown types are refused with an error code and without effect; other entries are unaffected. The list does not compare the type under which a value was stored with the type under which it is fetched (a change of type reinterprets the same 8 bytes).", "quantifier": "all lists, all histories of operations", "why_tests_cant": "Unbounded histories.", "anchors": ["libaudiofile/aupv.c"]}
{"id": "C30", "title": "ID lists in a setup", "statement": "afInitInstIDs and afInitLoopIDs accept a list exactly when its ids are pairwise different, a rejected list leaves the setup unchanged, and an accepted list is what the opened file reports. afInitMiscIDs and afInitMarkIDs accept every list, repeated ids included; the opened file reports the miscellaneous list unchanged and the marker list with every id cut to 16 bits.", "quantifier": "all id lists", "why_tests_cant": "Arbitrary list lengths.", "anchors": ["libaudiofile/util.cpp:_af_unique_ids", "libaudiofile/Setup.cpp", "libaudiofile/Loop.cpp", "libaudiofile/Miscellaneous.cpp", "libaudiofile/Instrument.cpp"]}
{"id": "C31", "title": "Sample-format settings keep the format consistent", "statement": "After any history of afInit calls, and after a successful afSetVirtualSampleFormat, the sample width is legal for the sample format, the frame size is bytes-per-sample times channels, the default PCM mapping matches the byte size, and channels, rate, byte order and compression are legal; a sample format call with an illegal format or width is refused and changes nothing. afSetVirtualChannels and afSetVirtualRate check nothing: any channel count and a rate of zero are accepted.", "quantifier": "all formats and widths", "why_tests_cant": "All int widths.", "anchors": ["libaudiofile/util.cpp:_af_set_sample_format", "libaudiofile/AudioFormat.cpp", "libaudiofile/pcm.cpp"]}
{"id": "C32", "title": "NeXT/Sun header round-trip", "statement": "Opening a .snd/.au file the library wrote, with any writes and syncs, on any host, reports the sample format, width, compression, channel count, rate (rounded down to a whole number), frame count and samples it was written with, if the rate is below 2^32 and the data is 1 to 2^32-2 bytes. A file without data reports 2^32-4 bytes of it.", "quantifier": "all formats the completeSetup accepts, all rates/channels/frame counts that fit the fields", "why_tests_cant": "All field values.", "anchors": ["libaudiofile/NeXT.cpp:readInit", "libaudiofile/NeXT.cpp:writeHeader"]}
{"id": "C33", "title": "AVR header round-trip", "statement": "Opening an AVR file the library wrote reports what was set up, rate rounded down, for one or two channels and rates below 2^24. With more channels the file opens as stereo; larger rates come back below 2^24.", "quantifier": "all accepted setups", "why_tests_cant": "All field values.", "anchors": ["libaudiofile/AVR.cpp"]}
{"id": "C34", "title": "WAVE fmt/data round-trip", "statement": "Opening a WAVE file the library wrote, through any history of writes, syncs and metadata calls, on any host, reports the same format, channels, frame count and samples, the rate rounded down and the width of uncompressed samples rounded up to whole bytes, if rate, channel count, frame count, file length, marker positions and miscellaneous sizes fit their fields and marker ids are different.", "quantifier": "all accepted setups, all frame counts", "why_tests_cant": "All field values.", "anchors": ["libaudiofile/WAVE.cpp"]}
{"id": "C35", "title": "AIFF/AIFF-C COMM/SSND round-trip", "statement": "Opening an AIFF or AIFF-C file the library wrote, through any history of writes, syncs and metadata calls, on any host, reports the same format, width, channels, rate, frame count and samples if the numbers fit the fields and the rate is a double; IMA-compressed files report the frame count rounded down to whole packets of 64 frames.", "quantifier": "all accepted setups, all frame counts", "why_tests_cant": "All field values.", "anchors": ["libaudiofile/AIFF.cpp"]}
{"id": "C36", "title": "VOC round-trip", "statement": "Opening a VOC file the library wrote, with any writes and syncs, on any host, reports the same format, channels, rate (rounded down), frame count and samples, if the rate is below 2^32, there are fewer than 256 channels and fewer than 2^24-12 bytes of data. With more data, the 24-bit block size wraps and data is lost.", "quantifier": "all accepted setups", "why_tests_cant": "All sizes.", "anchors": ["libaudiofile/VOC.cpp"]}
{"id": "C37", "title": "CAF description round-trip and packet-table integers", "statement": "CAF description fields and every 32-bit packet size survive writing and reading.", "quantifier": "all values", "why_tests_cant": "2^32 values; variable-length encoding boundaries.", "anchors": ["libaudiofile/CAF.cpp:encodeBERInteger", "libaudiofile/CAF.cpp:readBERInteger", "libaudiofile/CAF.cpp:writeDescription", "libaudiofile/CAF.cpp:parseDescription"]}
{"id": "C38", "title": "Opening a file terminates", "statement": "Opening a file finishes, whatever its bytes are, unless the lengths in its own headers stop the walk from chunk to chunk from moving on. Precisely: VOC files always finish. AIFF, AIFF-C and IFF/8SVX files finish if no chunk that the walk reaches says it is 2^32 - 8 bytes or longer. WAVE files finish if the walk stays within the first 4 GiB (and, on a big-endian machine, if the file does not end inside a chunk length). CAF files finish if no chunk the walk reaches has a length of -12 or less. For each of the four there is a file outside its condition on which opening never ends, and a WAVE file whose header has the length 2^32 - 1 (as programs that write to a pipe leave it) is never opened.", "quantifier": "all file contents", "why_tests_cant": "Adversarial inputs; non-termination is not a test outcome.", "anchors": ["libaudiofile/WAVE.cpp:readInit", "libaudiofile/AIFF.cpp:readInit", "libaudiofile/IFF.cpp:readInit", "libaudiofile/CAF.cpp:readInit", "libaudiofile/VOC.cpp:readInit"]}
{"id": "C39", "title": "Files are recognised as the format they were written in", "statement": "The signatures of the file formats are mutually exclusive. Identifying any file returns the format whose signature the file has, or 'unknown' if it has none, and leaves the file position unchanged. Every file the library writes is identified as its own format, for all setups, data and syncs (WAVE, AIFF and AIFF-C, NeXT, AVR, IRCAM, SampleVision, VOC, NIST, CAF with and without packets, IFF below 4 GiB); raw files are never identified as raw and are identified as another format if their samples begin with its signature.", "quantifier": "all file contents", "why_tests_cant": "All byte sequences.", "anchors": ["libaudiofile/openclose.cpp:_af_identify", "libaudiofile/units.cpp"]}
{"id": "C40", "title": "Chunks are padded to even length", "statement": "In WAVE, AIFF and IFF files every chunk the library writes starts at an even offset and says how long it is, whatever the lengths of names, comments and miscellaneous data (sizes not negative).", "quantifier": "all string and data lengths", "why_tests_cant": "All lengths.", "anchors": ["libaudiofile/WAVE.cpp:writeMiscellaneous", "libaudiofile/WAVE.cpp:writeZString", "libaudiofile/AIFF.cpp:writePString", "libaudiofile/AIFF.cpp:writeMiscellaneous", "libaudiofile/AIFF.cpp:writeMARK"]}
{"id": "C41", "title": "Markers survive WAVE and AIFF files", "statement": "Markers written to a WAVE file are read back with their ids, positions, names and comments, if the ids are different 16-bit numbers and positions are below 2^32; markers of an AIFF file with ids, positions and names, comments being lost. WAVE marker ids beyond 16 bits come back as other markers' ids, with names exchanged.", "quantifier": "all marker lists", "why_tests_cant": "Arbitrary lists and string lengths.", "anchors": ["libaudiofile/WAVE.cpp:writeCues", "libaudiofile/WAVE.cpp:parseCues", "libaudiofile/AIFF.cpp:writeMARK", "libaudiofile/AIFF.cpp:parseMARK"]}
{"id": "C42", "title": "Access modes are enforced", "statement": "Reading calls fail on files opened for writing and writing calls fail on files opened for reading, without any effect on data, positions or metadata.", "quantifier": "all call histories", "why_tests_cant": "Unbounded histories.", "anchors": ["libaudiofile/FileHandle.cpp:checkCanRead", "libaudiofile/FileHandle.cpp:checkCanWrite", "libaudiofile/data.cpp", "libaudiofile/Marker.cpp", "libaudiofile/Miscellaneous.cpp"]}
{"id": "C43", "title": "A setup is captured at open time", "statement": "Changing or freeing an AFfilesetup after afOpenFile does not affect the open file, and opening does not modify the caller's setup beyond the format's documented corrections.", "quantifier": "all setups and later changes", "why_tests_cant": "Aliasing over histories.", "anchors": ["libaudiofile/Setup.cpp:_af_filesetup_copy", "libaudiofile/FileHandle.cpp:initFromSetup"]}
{"id": "C44", "title": "ALAC channel mixing is lossless", "statement": "The stereo decorrelation used by ALAC is inverted exactly by the decoder for every mix parameter that keeps the mixed values within 32 bits (sample width + mixbits at most 30, |mixres| at most 2^mixbits); the parameters the encoder uses are among them at each sample width, and the mixed values take one bit more than the samples at most. For wider samples the inversion can fail; 20-bit samples lose the lower four of their 24 stored bits.", "quantifier": "all sample pairs, all mixbits/mixres in the range, 16/20/24/32-bit samples", "why_tests_cant": "2^64 inputs times parameters.", "anchors": ["libaudiofile/alac/matrix_enc.c:mix16", "libaudiofile/alac/matrix_dec.c:unmix16"]}
{"id": "C45", "title": "ALAC prediction is lossless", "statement": "The adaptive predictor's residual, fed to the decoder's inverse, reproduces the samples exactly and leaves encoder and decoder with the same coefficients.", "quantifier": "all blocks, coefficients, orders and shifts", "why_tests_cant": "History-dependent adaptive state.", "anchors": ["libaudiofile/alac/dp_enc.c:pc_block", "libaudiofile/alac/dp_dec.c:unpc_block"]}
{"id": "C46", "title": "ALAC entropy coding is lossless", "statement": "The adaptive Golomb decoder reproduces exactly the residual block the encoder was given and stops exactly at the end of the bits it produced, at every bit offset and whatever the memory around contains, for residuals of 1 to 25 bits (the codec uses 16 to 21); the bits before the start are left alone. For 26 to 31 bits this fails.", "quantifier": "all residual blocks within the bit size, all start offsets, all memory contents, all coder parameters of a range that includes the library's", "why_tests_cant": "History-dependent adaptive state and bit alignment.", "anchors": ["libaudiofile/alac/ag_enc.c:dyn_comp", "libaudiofile/alac/ag_dec.c:dyn_decomp"]}
{"id": "C47", "title": "Packet positions are prefix sums", "statement": "The byte position of packet i in a variable-packet file is the sum of the sizes of the packets before it.", "quantifier": "all packet tables", "why_tests_cant": "Arbitrary lengths.", "anchors": ["libaudiofile/PacketTable.cpp", "libaudiofile/modules/ALAC.cpp"]}
{"id": "C48", "title": "Conversion chain reaches the requested format", "statement": "For every pair of file and virtual formats the assembled conversion chain is described as producing exactly the virtual format; identical formats give an empty chain; for all integer formats with equal channel counts the chain turns the file's samples, in the file's byte order, width and sign, into the same samples in the virtual format, and back when writing. A 24-bit virtual format of the non-native byte order is not swapped.", "quantifier": "all pairs of formats", "why_tests_cant": "Product of all formats, widths, orders, channel counts and mappings.", "anchors": ["libaudiofile/modules/ModuleState.cpp:arrange"]}
{"id": "C49", "title": "IRCAM header round-trip", "statement": "Opening an IRCAM/BICSF file the library wrote, with any writes and syncs, on any host, reports the sample format, compression, channels, frame count and samples it was written with, the rate rounded to a float, and the writing host's byte order. So a file set up with the other byte order reads back with its samples swapped.", "quantifier": "all accepted setups, all data, writing and reading hosts of either byte order", "why_tests_cant": "All field values; hosts of both byte orders.", "anchors": ["libaudiofile/IRCAM.cpp:writeInit", "libaudiofile/IRCAM.cpp:readInit", "libaudiofile/IRCAM.cpp:completeSetup"]}
{"id": "C50", "title": "Miscellaneous data survives files", "statement": "Miscellaneous data written to a WAVE file is read back with type, size, contents and order (ids given anew from 1); in AIFF files items of size zero, and in IFF files also items that are not copyright, author, name or annotation, are lost and everything else is read back. Sizes 0 to 2^31-1.", "quantifier": "all lists of items, all sizes, all contents, all interleavings of stores with audio data and syncs", "why_tests_cant": "Arbitrary lengths (odd and even), counts and histories.", "anchors": ["libaudiofile/WAVE.cpp:writeMiscellaneous", "libaudiofile/WAVE.cpp:parseINFOSubChunk", "libaudiofile/AIFF.cpp:writeMiscellaneous", "libaudiofile/IFF.cpp:writeMiscellaneous"]}
{"id": "C51", "title": "Opening does not depend on uninitialised memory", "statement": "Opening a file gives a result determined by its bytes — no variable is used that was not read, no table is overrun — for every file that has what it announces: NeXT, AVR, IRCAM: at least 24, 38, 16 bytes. AIFF, AIFF-C and IFF: every chunk inside the form whose type is there has the fixed fields of its type (and every marker its name), and there is a COMM (VHDR) chunk. WAVE (less than 4 GiB, no chunk header cut by the end of the file): the fields of format chunks by format tag, at most 256 MS ADPCM coefficient pairs, cue points, and the entries of lists are there. CAF: lengths are not negative, and a description comes before the audio data. VOC: the beginnings of its blocks and a sound block. Sample Vision: header and trailer. NIST: each field that is there has a value. Audio data may be missing. It is false otherwise: most formats do not check short reads of header fields, use a format that was never read, and WAVE does not limit the number of MS ADPCM coefficients.", "quantifier": "all file contents", "why_tests_cant": "Adversarial inputs; a test cannot observe that a value was uninitialised.", "anchors": ["libaudiofile/WAVE.cpp:parseFormat", "libaudiofile/NeXT.cpp:readInit", "libaudiofile/AVR.cpp:readInit", "libaudiofile/IRCAM.cpp:readInit", "libaudiofile/VOC.cpp:readInit"]}
{"id": "C52", "title": "Instruments and AES data survive AIFF files", "statement": "The AES data of an AIFF file and, when its instrument has the default id and loops 1 and 2, base note, detune, note and velocity ranges, gain and the mode, start and end of both loops are what the program had set when it closed the file. Loop counts, the two loop parameters and every other instrument are lost: any AIFF file reads back with instrument 2001 and loops 1 and 2.", "quantifier": "all accepted setups, all histories of setting calls interleaved with audio data and syncs, writing and reading hosts of either byte order", "why_tests_cant": "A test writes one instrument; the claim is about every value of every parameter, every order of calls and every layout of the chunks around it.", "anchors": ["libaudiofile/AIFF.cpp: writeINST, parseINST, writeAESD, parseAESD", "libaudiofile/Instrument.cpp", "libaudiofile/Loop.cpp", "libaudiofile/aes.cpp"]}
{"id": "C53", "title": "The virtual format of a file opened for writing is the format of the setup", "statement": "After a file is opened for writing, before any afSetVirtual call, the virtual format of the track is what the setup asked for (sample format, PCM mapping, rate, channels), in the host's byte order and uncompressed, for every file format but IFF. For IFF it has 8 bits and one channel, and the PCM mapping of the setup, so full-scale 8-bit samples come out as silence.", "quantifier": "all setups, all file formats, hosts of either byte order", "why_tests_cant": "The result depends on which of the format, width, byte order and compression calls were made before and on every file format's corrections.", "anchors": ["libaudiofile/openclose.cpp: _afOpenFile", "libaudiofile/IFF.cpp: completeSetup", "libaudiofile/modules/ModuleState.cpp: arrange"]}
{"id": "C54", "title": "IFF/8SVX round trip", "statement": "Opening an IFF/8SVX file the library wrote, through any sequence of writes, syncs and metadata calls, reports one channel of 8-bit samples, the same frame count and audio bytes, and the rate rounded down and reduced modulo 65536: whole rates below 65536 survive, 96000 Hz is reported as 30464.", "quantifier": "all accepted setups, all rates, all sequences of events, both host byte orders", "why_tests_cant": "All field values, all histories of writes and syncs, all frame counts (odd ones are padded and the pad byte must disappear when writing goes on after a sync).", "anchors": ["libaudiofile/IFF.cpp"]}
{"id": "C55", "title": "ALAC packets are lossless", "statement": "Decoding a packet the ALAC encoder wrote delivers the number of frames and every sample (for 20-bit samples: their upper 20 of 24 bits), full and partial packets, 1 to 8 channels, compressed or escaped, whatever parameters the encoder's search chose and whatever its output buffer contained before.", "quantifier": "all packets of up to 2^24 frames, all sample values, all widths, all channel counts, all search results", "why_tests_cant": "Samples, bit alignment, adaptive state and channel layouts multiply.", "anchors": ["libaudiofile/alac/ALACEncoder.cpp: Encode, EncodeMono, EncodeStereo, EncodeStereoEscape", "libaudiofile/alac/ALACDecoder.cpp: Decode"]}
{"id": "C56", "title": "ALAC packets fit their buffer", "statement": "The packet the encoder produces is no longer than the buffer the library provides for it, for every content.", "quantifier": "all packets of 16 to 2^24 frames", "why_tests_cant": "The worst case over all sample values is not found by testing.", "anchors": ["libaudiofile/modules/ALAC.cpp: bufferSize, runPush", "libaudiofile/alac/ALACEncoder.cpp"]}
{"id": "C57", "title": "Damaged ALAC packets stay within the buffers", "statement": "Decoding a packet of any bytes, under any configuration whose parameters an encoder could have written, terminates and writes only to the frames asked for of the output buffer and within the decoder's own buffers, unless an element the decoder comes to has one of a short list of header faults that no encoder writes: more frames than the packet may have, all of the sample's bytes shifted off, a pair of 33 bits, a mixing shift of 32 or more, a predictor shift of 0 or a predictor warm-up longer than the buffers. With too large a frame count, seven bytes suffice to write past the buffers; and bits behind the end of the packet are read as if they belonged to it.", "quantifier": "all packets", "why_tests_cant": "All byte sequences.", "anchors": ["libaudiofile/alac/ALACDecoder.cpp: Decode"]}
{"id": "C58", "title": "ALAC files round trip", "statement": "Frames written to an ALAC track of a CAF file in any number of afWriteFrames calls, with any changes of the virtual format between them and without afSyncFile, are what afReadFrames delivers from the closed file, for any sequence of reads, seeks and format changes: every bit for 16, 24 and 32-bit samples, the upper 20 bits for 20-bit samples. (afSyncFile on such a track destroys the file.)", "quantifier": "all setups accepted for ALAC, hosts, sample values, write histories, read/seek histories, and choices of the encoder's search", "why_tests_cant": "All sample sequences, all splits into calls, and all parameters the adaptive search may choose.", "anchors": ["libaudiofile/modules/ALAC.cpp: runPush, runPull, sync1, reset1", "libaudiofile/CAF.cpp: writeData, writePacketTable, parsePacketTable", "libaudiofile/modules/RebufferModule.cpp", "libaudiofile/alac/ALACEncoder.cpp: Encode", "libaudiofile/alac/ALACDecoder.cpp: Decode"]}
{"id": "C59", "title": "Reading packet-table tracks stays within its buffers", "statement": "On a track whose packets are listed in a packet table, reading, seeking and telling stay within the codec's buffers, the rebuffering and the caller's buffer whenever the table lists packets that fit the buffer and not more frames than they can hold (the buffers between conversion modules are the subject of C65); a missing table, an oversized packet, a frame count beyond the packets, and a seek on an empty track each make the library leave its memory.", "quantifier": "all tables, file contents and call histories", "why_tests_cant": "All file contents and call histories.", "anchors": ["libaudiofile/modules/ALAC.cpp: runPull, reset1", "libaudiofile/PacketTable.cpp: startOfPacket", "libaudiofile/modules/RebufferModule.cpp: runPull", "libaudiofile/data.cpp: afReadFrames", "libaudiofile/format.cpp: afSeekFrame"]}
{"id": "C60", "title": "SampleVision files round trip", "statement": "A SampleVision file written with one channel and fewer than 2^31 frames, with any writes and syncs, opens with the rate (rounded down), format, frame count and samples it was written with. A setup with more channels is accepted but the file opens as mono, with the first 1/channels of the samples and a rate taken from the wrong place; every file opens with a name and a comment nobody gave it; each afSyncFile with no data since the last one lengthens the file by 215 bytes.", "quantifier": "all setups, write/sync histories and hosts", "why_tests_cant": "All call histories and sample data.", "anchors": ["libaudiofile/SampleVision.cpp: readInit, writeInit, update, writeTrailer", "libaudiofile/modules/PCM.cpp: sync2"]}
{"id": "C61", "title": "NIST SPHERE files round trip", "statement": "A NIST SPHERE file written with samples of 9 to 16 bits (uncompressed, u-law or A-law), a rate of at least 1 and below 2^31 and fewer than 2^31 frames, with any writes and syncs, opens with the rate (rounded down), channels, format, byte order, frame count and samples it was written with. Uncompressed samples of 1 to 8 bits are accepted but the file opens as u-law; G.711 with a declared width of 1 to 8 bits is accepted but opening for writing is undefined behaviour; a rate below 1 is accepted but the file cannot be opened; larger frame counts wrap; a header key without a number makes the reader use an unassigned variable.", "quantifier": "all setups, write/sync histories and hosts", "why_tests_cant": "All setups, call histories and sample data; the header is text whose fields have varying lengths.", "anchors": ["libaudiofile/NIST.cpp: readInit, writeInit, update, writeHeader, nist_header_read_int, nist_header_read_string"]}
{"id": "C62", "title": "Opened files have formats the library can work with", "statement": "Whatever bytes a file consists of, if afOpenFile opens it for reading, then its samples have a legal width, its compression is one the library has, with the sample type, width and byte order that codec needs, an uncompressed packet is exactly one frame, and the number of channels is not zero and within the codec's limit. The number of channels is positive in all formats but NeXT/Sun and CAF, where a header count of 2^31 or more is taken as a negative number and the file opens.", "quantifier": "all files (byte sequences) and hosts", "why_tests_cant": "All byte sequences, of any length.", "anchors": ["libaudiofile/*.cpp: readInit of every format", "libaudiofile/modules/ModuleState.cpp: initFileModule", "libaudiofile/modules/{PCM,G711,IMA,MSADPCM,ALAC}.cpp: format_ok", "libaudiofile/openclose.cpp: _afOpenFile"]}
{"id": "C63", "title": "Raw files", "statement": "A raw file written with a setup (any data offset, uncompressed or G.711) and any writes and syncs, opened with the same setup, gives the format, frame count and samples it was written with; a frame count in the setup is taken at its word. Outside: with a data offset but no data the file cannot be opened again; a mono G.711 setup with a width of at most 8 bits makes opening any file for reading divide by zero; ADPCM and ALAC setups are accepted and lead to undefined behaviour when opening for reading or writing.", "quantifier": "all setups, write/sync histories, files and hosts", "why_tests_cant": "All setups, call histories and sample data.", "anchors": ["libaudiofile/Raw.cpp: readInit, writeInit, completeSetup", "libaudiofile/modules/ModuleState.cpp: initFileModule", "libaudiofile/modules/{G711,IMA,MSADPCM,ALAC}.cpp: format_ok, create*"]}
{"id": "C64", "title": "Setups and handles own their memory", "statement": "In every history of calls that makes, changes, opens with and frees setups, and uses and closes the handles opened for writing, no call follows a null, dangling or out-of-bounds pointer or frees anything twice, every call answers as if each setup and handle were a value of its own, and when all setups are freed and all handles closed (whichever opens failed) no memory is left.", "quantifier": "all histories on any number of setups and handles that use no freed object and do not write outside a miscellaneous chunk", "why_tests_cant": "Aliasing, double frees and leaks depend on the history; a test sees a few histories and a sanitizer only those.", "anchors": ["libaudiofile/Setup.cpp:afNewFileSetup", "libaudiofile/Setup.cpp:afFreeFileSetup", "libaudiofile/Setup.cpp:_af_filesetup_copy", "libaudiofile/FileHandle.cpp:initFromSetup", "libaudiofile/FileHandle.cpp:~_AFfilehandle", "libaudiofile/Track.cpp:copyMarkers", "libaudiofile/Marker.cpp:afInitMarkIDs", "libaudiofile/Instrument.cpp:afInitInstIDs", "libaudiofile/Miscellaneous.cpp:afWriteMisc", "libaudiofile/openclose.cpp:_afOpenFile", "libaudiofile/format.cpp:afSetChannelMatrix"]}
{"id": "C65", "title": "Conversion buffers are large enough", "statement": "Whatever a program does with an opened track (reading, writing, seeking, syncing and changing the virtual format in any order and number), no conversion module, codec or rebuffering step touches memory outside its buffer or the caller's buffer, for tracks of fewer than 2^18 channels whose packets are no larger than the audio they stand for, and, when packets have more than 1024 frames, virtual formats that widen no sample at any stage of the conversion (the format a file is opened with never does). Outside these conditions the library leaves its buffers: after a seek into an ALAC packet read as float, with a WAVE file of one-frame blocks of 65535 bytes, with 2^20 channels; and it divides by zero with blocks of no bytes.", "quantifier": "all tracks, formats, codecs, answers of the file to read calls, and sequences of calls", "why_tests_cant": "How much is asked of each buffer depends on the position within a packet, the chain of conversions and the history; overflows on the heap need not show in a test.", "anchors": ["libaudiofile/modules/ModuleState.cpp:setup", "libaudiofile/data.cpp:afReadFrames", "libaudiofile/data.cpp:afWriteFrames", "libaudiofile/modules/RebufferModule.cpp:runPull", "libaudiofile/modules/BlockCodec.cpp:runPull", "libaudiofile/modules/ALAC.cpp:bufferSize", "libaudiofile/modules/FileModule.cpp:bufferSize", "libaudiofile/WAVE.cpp:parseFormat"]}
{"id": "C66", "title": "What afSyncFile has written survives the death of the program", "statement": "A program that opens a file for writing, writes and calls afSyncFile in any order and later dies, after any further writes and metadata calls but without another afSyncFile or afCloseFile, leaves a file that opens and holds exactly the audio (and, for WAVE, AIFF, AIFF-C and IFF, the markers, instrument, AES and miscellaneous data) of the moment of the last sync, for NeXT/Sun, AVR, NIST, WAVE, AIFF, AIFF-C and IFF; for IRCAM it holds all that was written, synced or not. It is false for VOC, CAF and Sample Vision, where audio written after a sync overwrites or extends what stands behind the synced audio: the file cannot be opened, the reader never ends, the rate is lost. A WAVE file that was never synced cannot be opened; an AIFF, AIFF-C or IFF file that was never synced opens with an undefined format.", "quantifier": "all setups, all histories of writes, syncs and metadata calls before the last sync and after it, and all points between or within later writes at which the program dies", "why_tests_cant": "every point of every history is a crash point; what follows the synced audio is arbitrary data that a parser may take for structure", "anchors": ["libaudiofile/openclose.cpp:afSyncFile", "libaudiofile/File.cpp:FilePOSIX::write", "libaudiofile/WAVE.cpp:WAVEFile::update", "libaudiofile/AIFF.cpp:AIFFFile::update", "libaudiofile/IFF.cpp:IFFFile::update", "libaudiofile/NeXT.cpp:NeXTFile::update", "libaudiofile/AVR.cpp:AVRFile::update", "libaudiofile/NIST.cpp:NISTFile::update", "libaudiofile/VOC.cpp:VOCFile::update", "libaudiofile/CAF.cpp:CAFFile::update", "libaudiofile/SampleVision.cpp:SampleVisionFile::update"]}
{"id": "C67", "title": "What one program writes, another reads", "statement": "A program that opens a file for writing with any accepted setup (NeXT/Sun, AVR, IRCAM, Sample Vision, VOC, NIST, CAF, WAVE, AIFF, AIFF-C, IFF/8SVX; uncompressed or G.711), sets any integer virtual format (or, on floating point tracks, the same floating point format), and writes frames in calls of any size mixed with afSyncFile and metadata calls, leaves a file that any program on any machine opens with the same number of channels and frames, and in which any sequence of reads, seeks, position questions and virtual format changes delivers, frame for frame, the samples that were written, each converted by the one documented chain of scalings (and the G.711 code); if the file is uncompressed and wide enough and the reader asks for the type that was written, these are exactly the samples that were written.", "quantifier": "all setups, virtual formats, sample values, partitions into calls, sync points, metadata calls, byte orders of both machines, and all call sequences of the reader (within the size limits of each format; afSyncFile on uncompressed tracks below 2 GiB)", "why_tests_cant": "the product of formats, widths, byte orders, chunkings, read patterns and sample values cannot be enumerated; the parts interact (codec checks, byte order flags, sample width rounding, frame counts)", "anchors": ["libaudiofile/data.cpp:afWriteFrames", "libaudiofile/data.cpp:afReadFrames", "libaudiofile/modules/ModuleState.cpp:ModuleState::arrange", "libaudiofile/modules/PCM.cpp:PCM", "libaudiofile/modules/G711.cpp:G711", "libaudiofile/openclose.cpp:_afOpenFile", "libaudiofile/format.cpp:afSetVirtualSampleFormat"]}
{"id": "C68", "title": "A full disk is noticed", "statement": "If write(2) or the virtual file's write function takes fewer bytes than it is given (a full disk, an interrupted or failing device), the program can tell from the results of its calls. For uncompressed and G.711 tracks: if every afWriteFrames counts all the frames it was given, the file is byte for byte the one that a disk with room would hold; at the first call with a short count, the file holds a prefix of the right data, the prefix contains at least every frame that has been counted so far, the header counts exactly the whole frames that are there, and the call's count is complete exactly if everything reached the file. For packet codecs: if all afWriteFrames calls count all their frames, every full packet is in the file, and the header's count includes the frames of the last packet only if that packet is there whole. With room for everything all calls report success. Documented exceptions (negations): the last, incomplete packet is written by afSyncFile or afCloseFile, and its loss is reported by neither (filemodhappy is looked at before the write; afCloseFile returns 0 whatever happens); a program that writes the uncounted frames of a short count again gets frames twice or shifted bytes, because frames and parts of frames of the failing 1024-frame chunk did reach the file.", "quantifier": "all configurations of a written track, all call sequences, all sequences of partial, zero or failing writes", "why_tests_cant": "A disk can fill up at any byte of any write; the consequences depend on where in the chunk, packet or frame that happens and on all calls before.", "anchors": ["libaudiofile/data.cpp: afWriteFrames", "libaudiofile/modules/FileModule.cpp: write, reportWriteError", "libaudiofile/modules/PCM.cpp: runPush", "libaudiofile/modules/G711.cpp: runPush", "libaudiofile/modules/BlockCodec.cpp: runPush, sync1, sync2", "libaudiofile/modules/ModuleState.cpp: sync", "libaudiofile/modules/RebufferModule.cpp: runPush, sync1, sync2", "libaudiofile/openclose.cpp: afSyncFile, afCloseFile"]}
{"id": "C69", "title": "Reads that come short never make a wrong frame count", "statement": "If a read delivers fewer bytes than it is asked for (a file shorter than its header says, a pipe, a signal, a device error), then no call leaves defined behaviour, afTellFrame, afSeekFrame and afGetFrameCount answer as always, and afReadFrames never counts more frames than it should. A program that reads on in requests of any size gets, up to and including the first call that delivers fewer frames than it was asked for, exactly the first frames of the track, each in its place. Whatever happened before, after a seek to another position than the current one (or a change of the virtual format) the next read delivers the right frames again. Frames whose packets are all there can be read completely by requests that do not go beyond them, wherever the file was cut off. Documented exceptions (negations): between a short call and such a seek, frames come from the wrong positions, bytes are shifted inside frames, and with a conversion in the chain frames are counted that were never stored; seeking to the current position does not help.", "quantifier": "all intact tracks (uncompressed, G.711, packet codecs), all call sequences, all sequences of partial or failing reads", "why_tests_cant": "Every read of every call can come short at any byte; what follows depends on the bytes, the packets, the conversions and all calls before and after.", "anchors": ["libaudiofile/data.cpp: afReadFrames", "libaudiofile/format.cpp: afSeekFrame, afTellFrame", "libaudiofile/modules/FileModule.cpp: read, reportReadError", "libaudiofile/modules/PCM.cpp: runPull, reset2", "libaudiofile/modules/G711.cpp: runPull, reset2", "libaudiofile/modules/BlockCodec.cpp: runPull, reset1, reset2", "libaudiofile/modules/RebufferModule.cpp: runPull, reset1", "libaudiofile/modules/SimpleModule.cpp: runPull"]}
{"id": "C70", "title": "FLAC files read as a cursor over their frames", "statement": "Reading a FLAC file (in a library built with FLAC): for every sequence of afReadFrames, afSeekFrame, afTellFrame, afGetFrameCount and changes of the virtual format, and however the encoder divided the audio into blocks, the caller sees a cursor over the frames of the stream: the right frames, each in its place, with the right counts and positions, and no buffer is overrun — provided the stream agrees with its header and (if libFLAC's failed seek needs a flush) no call makes the library seek to the very end. A stream opens exactly if it has at most 8 channels of 16 or 24 bits. Documented exceptions (negations): a stream shorter than its header says is reported complete, the missing frames counted but never stored; after a seek to the end every later seek reports success and delivers the old buffer; a block with more channels than announced overruns the decoder's buffers; a stream whose header leaves the length open reads as empty.", "quantifier": "all streams, all divisions into blocks, all sequences of calls, all request sizes, both byte orders, both sample widths", "why_tests_cant": "The interplay of requests, 1024-frame chunks and encoder-chosen blocks of 1 to 65535 frames, with seeks into the middle of blocks, has unboundedly many cases; tests read a file from beginning to end.", "anchors": ["libaudiofile/modules/FLAC.cpp: FLACDecoder::runPull, convertAndInterleave, didDecodeFrame, reset2", "libaudiofile/FLACFile.cpp: readInit, parseStreamInfo", "libaudiofile/data.cpp: afReadFrames", "libaudiofile/modules/ModuleState.cpp: setup, reset"]}
{"id": "C71", "title": "What is written to a FLAC file can be read back", "statement": "Writing a FLAC file: for every sequence of afWriteFrames, changes of the virtual format and afSyncFile, libFLAC is given exactly the frames written, in order and with their exact sample values, every write reports all its frames, and, for any lossless FLAC library, a reader of the file then sees a cursor over exactly these frames, whatever calls it makes — provided nothing is written after afSyncFile, libFLAC accepts the parameters and the writes to the file succeed. afOpenFile accepts exactly the setups with at most 8 channels of 16- or 24-bit signed integers, no other compression and no metadata, and the file gets the caller's rate, channels and width. Documented exceptions (negations): a write after afSyncFile goes to a finished encoder; when libFLAC refuses the parameters the open succeeds and the first write goes through a null pointer; when the disk is full the writes report success and the frames are not in the file.", "quantifier": "all setups, all sequences of writing calls, all sample values, all sequences of reading calls, all lossless libraries", "why_tests_cant": "A round trip test fixes the sizes of the calls and the sample values; the claim is about every division of the audio into calls on both sides and every sample, and about histories with afSyncFile and failing writes.", "anchors": ["libaudiofile/modules/FLAC.cpp: FLACEncoder::runPush, convert16To32, convert24To32, sync2, _af_flac_format_ok", "libaudiofile/FLACFile.cpp: completeSetup, writeInit, update", "libaudiofile/data.cpp: afWriteFrames", "libaudiofile/openclose.cpp: afSyncFile, afCloseFile"]}
{"id": "C72", "title": "Capability queries tell the truth", "statement": "afQuery, afQueryLong and afQueryPointer: every query with any arguments has a defined answer except marker queries for a file format that does not exist; no number they give is negative, so −1 always means no number; the lists of file formats, compression types, compression types of a format and instrument parameters can be read entry by entry, without repetition. Formats and compression types listed are those said to be implemented, and for these files can be made: with each compression type listed for a format a file is made, every compressed file (raw and NIST apart) has a listed compression type, a compression type is implemented exactly if some file can be made with it, a file for which no sample format was asked for has the default sample format and width of the query, compressed files have the native sample format, metadata accepted stays within the numbers of instruments and loops, and the instrument parameters of a new file are exactly the listed ones with the defaults of the query. Documented exceptions (negations): marker queries out of range read outside the tables; FLAC is said to be implemented in builds without it; NIST takes u-law and raw takes FLAC without listing them; AIFF takes more markers than the maximum; CAF gets an instrument and IRCAM markers although said to be unsupported.", "quantifier": "all query types and arguments, all sequences of setup calls, both host byte orders, builds with and without FLAC", "why_tests_cant": "The claim compares the tables with what thirteen acceptance functions do on an infinite set of setups; a test can compare only the setups it lists.", "anchors": ["libaudiofile/query.cpp: afQuery, afQueryLong, afQueryPointer, _afQuery*", "libaudiofile/units.cpp: _af_units, _af_compression", "libaudiofile/Instrument.cpp: _af_instparam_index_from_id", "libaudiofile/*.cpp: completeSetup, compression type lists"]}
{"id": "C73", "title": "Which setups make a file", "statement": "For every sequence of calls on a new setup, on either kind of host, with or without FLAC, afOpenFile for writing does exactly what a table over (file format, compression, sample format and width, channels, rate, byte order, metadata asked for) says: it refuses, or it makes a file with exactly the sound the table gives. A definite request is never turned into another sound: rate, channels, width and compression are as asked, the sample format up to the sign of integers, the byte order unless the format or codec has its own; what was not asked for gets the format's default. Every file that is opened has a positive rate and number of channels, a legal width, and a codec that takes it. Documented exception (negation): a raw file in IMA ADPCM, MS ADPCM or ALAC passes every check, the codec cannot be created, and an uninitialised chunk size is used.", "quantifier": "all sequences of setup calls with any arguments, both host byte orders, builds with and without FLAC", "why_tests_cant": "The set of setups is infinite (rates, channel counts, widths, offsets, lists of metadata) and the acceptance rules are thirteen hand written functions; a test can only try some combinations.", "anchors": ["libaudiofile/openclose.cpp: _afOpenFile", "libaudiofile/AIFF.cpp, AVR.cpp, CAF.cpp, FLACFile.cpp, IFF.cpp, IRCAM.cpp, NeXT.cpp, NIST.cpp, Raw.cpp, SampleVision.cpp, VOC.cpp, WAVE.cpp: completeSetup", "libaudiofile/modules/ModuleState.cpp: initFileModule", "libaudiofile/compression.cpp, modules/*: format_ok", "libaudiofile/Setup.cpp, format.cpp: afInit*"]}
{"id": "C74", "title": "Using a setup again", "statement": "A setup can be used for any number of files: if no call is made on it between the files then each afOpenFile does what the first did, to the last detail of the file's format, whatever calls were made before. Documented exceptions (negations) when calls are made in between: a file leaves its defaults behind in the caller's setup, so that after an AIFF file a raw file is big-endian on a little-endian host, after a NeXT file u-law is refused, after an IFF/8SVX file a NeXT file is 8-bit mono, and after a FLAC file an AIFF file is refused.", "quantifier": "all sequences of setup calls, any number of files, both host byte orders, builds with and without FLAC", "why_tests_cant": "The property ranges over all histories of a setup; the caller's setup is silently modified by each open, which a test sees only for the particular sequences it tries.", "anchors": ["libaudiofile/openclose.cpp: _afOpenFile", "libaudiofile/*.cpp: completeSetup", "libaudiofile/util.cpp, Setup.cpp: _af_filesetup_copy, _af_setup_*"]}
{"id": "C75", "title": "Dying inside afSyncFile loses nothing that an earlier sync had saved", "statement": "A program opens a file for writing, writes and syncs in any order, syncs, goes on writing audio, calls afSyncFile again and dies inside that call, after any number of its write(2) calls. For NeXT/Sun, AVR, NIST SPHERE, WAVE and IFF/8SVX the file it leaves opens and holds either the sound of the earlier sync or the sound of the one that was cut short, never a mixture; for WAVE also with all markers and miscellaneous data, for IFF with all miscellaneous data. (While a WAVE file that carries a frame count of its own is being synced, the number of bytes reported may be that of the earlier sync.) If no call is missing, the file is the one that afSyncFile leaves. It is false for AIFF, whose length is written before the length of the sound: audio is then read as chunks, and a file that could be opened before the sync cannot be opened any more.", "quantifier": "all setups, all histories of writes, syncs and (WAVE, IFF) metadata calls, all audio data, every number of calls after which the program dies, both host byte orders of writer and reader", "why_tests_cant": "A test would have to kill the program between every two system calls of every history; the header is patched in up to dozens of small writes whose intermediate states depend on the history.", "anchors": ["libaudiofile/WAVE.cpp: update, writeFrameCount, writeMiscellaneous, writeCues", "libaudiofile/IFF.cpp: update, writeVHDR, writeBODY", "libaudiofile/NeXT.cpp: update, writeHeader", "libaudiofile/AVR.cpp: update", "libaudiofile/NIST.cpp: update", "libaudiofile/AIFF.cpp: update", "libaudiofile/openclose.cpp: afSyncFile", "libaudiofile/File.cpp: FilePOSIX::write"]}
{"id": "C76", "title": "sfconvert: the output is what was asked for and plays the input's sound", "statement": "sfconvert input output keyword... For every sequence of keywords with proper values, in any order and number, the output is asked for with what the last keyword of each kind says and, where nothing is said, with the file format, encoding, channels and (if positive) rate of the input and without compression. If the library makes such an output, the input (uncompressed or G.711) opens and has all its frames, the conversion succeeds, changes no file but the output, and the output opens and plays the frames of the input, all and in order, as far as the samples of the output can hold them (integer to integer, or the same floating point format); with samples of the same kind and size the output answers every program exactly as the input does. If the input does not exist or cannot be opened, no file is changed; if it ends before its last frame, the conversion fails and leaves no output. The copying loop reports success only if every frame was read and accepted, whatever the two files do. Not so: an output that the library refuses is emptied first; a negative frame count (NIST) converts successfully to an empty output; the documented keyword byteorder does nothing. A mistake in the command line (a keyword without its value, fewer than 1 channel, an integer width outside 1 to 32, an unknown name) ends the program with a failure before any file is touched.", "quantifier": "all command lines, all input files that open with uncompressed or G.711 sound, all contents of other files, both host byte orders, all behaviours of the two handles in the copying loop", "why_tests_cant": "The conversions are a product of all input files, all keyword sequences and all lengths around the 65536-frame buffer.", "anchors": ["sfcommands/sfconvert.c: main, copyaudiodata", "libaudiofile/openclose.cpp: afOpenFile", "libaudiofile/data.cpp: afReadFrames, afWriteFrames", "libaudiofile/format.cpp: afSetVirtualSampleFormat, afSetVirtualChannels"]}
{"id": "C77", "title": "Files that other programs wrote open with the sound their headers describe", "statement": "For every file of the descriptions that follow, whoever wrote it, afOpenFile succeeds on a machine of either byte order, afGetRate, afGetChannels, afGetSampleFormat, afGetCompression and afGetFrameCount give what the header describes, and reading and seeking give the samples that the bytes of the sound are. WAVE: unknown chunks of any contents and parity before, between and after the known ones, a format chunk of any length, plain or WAVE_FORMAT_EXTENSIBLE, PCM of 1 to 32 bits, floats, G.711 also by IBM's numbers, a fact chunk or none. (ADPCM files are in C80.) NeXT: any comment, a size that is right, unknown or too large, bytes after the sound. AVR: anything in the fields that do not describe the sound. IRCAM: the signatures of four machines in both byte orders. Creative Voice: any other blocks before the sound; type 1, type 8 + 1, type 9; other blocks after type 9, none after type 1. AIFF, AIFF-C: the common chunk and the sound in either order, texts, markers, instruments and unknown chunks anywhere, a gap before the sound, all compression ids of PCM, floats and G.711 (also sowt, in24, in32, ULAW, FL32, ...), any rate a double can hold. IFF 8SVX: one octave, one channel, either order, other chunks anywhere. Core Audio: any chunks after the description and after the sound, a sound whose size is given or not, integers of up to 32 bits, floats and G.711 in both byte orders. NIST SPHERE: the lines of the header in any order among any others, PCM of 2 to 4 bytes in either order and with fewer significant bits, G.711. SampleVision: any texts, loops, markers and note. Not so: a compressed or stereo 8SVX file opens as uncompressed mono; a block after a sound of type 1 is heard as sound; an IRCAM file that ends within its header has 2^63 - 504 frames; a fact chunk is believed whatever the data. A Core Audio file whose samples are wider than they must be is read as if they were not; 8-bit PCM in NIST SPHERE is read as mu-law; a G.711 SPHERE file without a byte format is refused unless memory that was never assigned happens to hold the machine's byte order. (For files whose sample rate is a positive number; about a rate of 0 see C84.)", "quantifier": "all files of these descriptions (all fields, all unknown chunks and blocks, all sounds), both host byte orders, all sequences of reads, seeks and virtual formats", "why_tests_cant": "The files are not limited to what any one program writes: chunks of any number, order, contents and parity, and all values of the fields.", "anchors": ["libaudiofile/WAVE.cpp: WAVEFile::readInit, parseFormat, parseFrameCount, parseData", "libaudiofile/NeXT.cpp: NeXTFile::readInit", "libaudiofile/AVR.cpp: AVRFile::readInit", "libaudiofile/IRCAM.cpp: IRCAMFile::readInit", "libaudiofile/VOC.cpp: VOCFile::readInit", "libaudiofile/AIFF.cpp: AIFFFile::readInit, parseCOMM, parseSSND, parseMARK, parseINST", "libaudiofile/IFF.cpp: IFFFile::readInit, parseVHDR, parseBODY", "libaudiofile/CAF.cpp: CAFFile::readInit, parseDescription, parseData", "libaudiofile/NIST.cpp: NISTFile::readInit", "libaudiofile/SampleVision.cpp: SampleVisionFile::readInit"]}
{"id": "C78", "title": "What one program writes in ADPCM, another reads", "statement": "A program opens a WAVE file with IMA or MS ADPCM compression, or an AIFF-C or CAF file with IMA ADPCM, writes frames in an integer virtual format of its choice in any number of afWriteFrames calls (with markers and miscellaneous data in between where the format has them) and closes it. A program on a host of either byte order opens the file: it succeeds, rate and channels are those set (the rate rounded down in WAVE), and any sequence of afReadFrames, afSeekFrame and afSetVirtual... calls gives the frames that the codec makes of the frames written, converted to 16 bits, block for block, each block as the decoder gives it back from the encoder; the reported number of frames is the number written (WAVE), the number in complete blocks (AIFF-C), or that number rounded up to whole blocks (CAF). What is heard of complete blocks does not depend on what the last block is filled up with. Not so: every 505th frame written to an IMA WAVE file makes no difference to it.", "quantifier": "all setups accepted by the library with these codecs (1 or 2 channels), all sequences of frames and their division into calls, all integer virtual formats, both byte orders of both hosts, all reading programs, all contents of fresh memory", "why_tests_cant": "All sounds, all splittings into calls, all seeks into the middle of blocks: tests compare a few sine waves with a tolerance.", "anchors": ["libaudiofile/modules/BlockCodec.cpp: runPull, reset2, runPush, sync1", "libaudiofile/modules/IMA.cpp: IMA::encodeBlock, decodeBlock", "libaudiofile/modules/MSADPCM.cpp: MSADPCM::encodeBlock, decodeBlock", "libaudiofile/WAVE.cpp: initIMACompressionParams, initMSADPCMCompressionParams", "libaudiofile/AIFF.cpp", "libaudiofile/CAF.cpp"]}
{"id": "C79", "title": "ADPCM blocks are decoded as the published definitions say", "statement": "A block of IMA ADPCM, as WAVE files and as QuickTime, AIFF-C and CAF files arrange it, with any number of channels, is decoded into the samples the IMA definition gives for every channel: start from the header's sample and step index, and for each four-bit code (low half of a byte first; in WAVE in groups of eight per channel) add the quantised step, limit to 16 bits and move the step index, limited to 0 to 88; this holds for every block that is long enough and whose headers hold a legal step index. A block of Microsoft ADPCM with one or two channels, if decoded at all, is decoded into the samples of Microsoft's definition (first two samples from the header, each further one the prediction with the channel's coefficients plus the signed code times the step size, limited to 16 bits; the step size adapts and is at least 16); it is decoded whenever the coefficients exist, are 16-bit sized and no step size exceeds 2796202.", "quantifier": "all blocks (any bytes), all numbers of frames per block and channels the codecs accept, all coefficient tables", "why_tests_cant": "There are more blocks than tests can try, and round trips with the library's own encoder do not notice a decoder and an encoder that deviate from the definition in the same way.", "anchors": ["libaudiofile/modules/IMA.cpp: decodeSample, decodeBlockWAVE, decodeBlockQT", "libaudiofile/modules/MSADPCM.cpp: decodeSample, decodeBlock"]}
{"id": "C80", "title": "ADPCM files that other programs wrote open and play the sound the definitions give", "statement": "For every WAVE file of IMA ADPCM (one or two channels, any block size with room for its 8k+1 frames per block, whatever else the format chunk has), every WAVE file of Microsoft ADPCM with the seven standard pairs of coefficients, every AIFF-C file with compression 'ima4' and every Core Audio file of format 'ima4' without a packet table, with any other chunks in the places where C77 allows them: afOpenFile succeeds on a machine of either byte order, the rate, the channels and the compression are those of the header, the samples are 16-bit integers, and any program that reads and seeks gets the frames that the codec's definition gives for the complete blocks of the sound; as many as the fact chunk says (WAVE), 64 times the number in the common chunk (AIFF-C), or as many as there are. The files' headers of blocks have legal step indices (IMA), coefficients among the seven and step sizes up to 2796202 (Microsoft).", "quantifier": "all such files (all fields, all other chunks, all sounds), both host byte orders, all sequences of reads, seeks and virtual formats", "why_tests_cant": "Neither the files nor the programs that read them are limited to a set that can be tried: any bytes may be the blocks of the sound, and any chunks surround it.", "anchors": ["libaudiofile/WAVE.cpp: WAVEFile::readInit, parseFormat, parseFrameCount, parseData", "libaudiofile/AIFF.cpp: AIFFFile::readInit, parseCOMM, parseSSND", "libaudiofile/CAF.cpp: CAFFile::readInit, parseDescription, parseData", "libaudiofile/modules/IMA.cpp: decodeSample, decodeBlockWAVE, decodeBlockQT", "libaudiofile/modules/MSADPCM.cpp: decodeSample, decodeBlock", "libaudiofile/modules/BlockCodec.cpp: runPull, reset1, reset2"]}
{"id": "C81", "title": "Descriptors and virtual files have one owner", "statement": "Over any history of afOpenFile, afOpenFD, afOpenVirtualFile, afIdentifyFD and afCloseFile, mixed with the program's own opening and closing, and whatever comes of each call (success, an unknown mode, a file or a setup that is refused at any stage, a failing open or dup): afOpenFile leaves one more descriptor open if it returns a handle and none if it returns null; afOpenFD and afOpenVirtualFile take over what they are given if they return a handle, and close or destroy it if they return null, unless the mode is null or unknown, when they leave it alone; afCloseFile closes or destroys what its handle has, once; no other descriptor is ever closed, none is closed twice, no virtual file is destroyed twice, and when all handles are closed only the program's own are left. afIdentifyFD changes no descriptor, no position and no file. Whatever the library does with a file gives the same results, bytes and position on a virtual file whose functions do what read, write and lseek do as on a descriptor. Not so: that one knows from the result of a failing afOpenFD whether the descriptor is still open; that an afOpenFile for writing that is refused (for its setup, say) leaves the file that was there: it is emptied first.", "quantifier": "all histories of calls, all outcomes of opening, all uses of a file, all virtual files that behave as files", "why_tests_cant": "Leaks and double closes depend on the history and on which call fails where; descriptors are numbers that are used again, so a second close hits another file only in some histories.", "anchors": ["libaudiofile/openclose.cpp: afOpenFile, afOpenFD, afOpenNamedFD, afOpenVirtualFile, afIdentifyFD, afIdentifyNamedFD, afCloseFile, _afOpenFile", "libaudiofile/File.cpp: File::open, File::create, FilePOSIX, FileVF", "libaudiofile/af_vfs.cpp: af_virtual_file_destroy"]}
{"id": "C82", "title": "The numbers an opened file reports", "statement": "Whatever bytes a file contains, on either kind of machine: if it opens, afGetDataOffset is not negative; afGetFrameCount is between 0 and 2^48 for AIFF, AIFF-C, NeXT, WAVE, AVR, IFF and Sample Vision files; afGetTrackBytes is not negative for NeXT, WAVE, AVR, IFF, Sample Vision and NIST files. An IRCAM file of at least 1024 bytes, and a VOC file that does not report a negative number of bytes, report a number of frames between 0 and the number of bytes; IRCAM and NIST files report as bytes what follows the 1024 bytes of header, and a VOC file never fewer than -1. Not so: that the numbers are never negative. A 16-byte IRCAM file opens with -1008 frames, a VOC file that ends with its sound block's fields with -1 (elsewhere: not known), a NIST file with whatever negative sample_count its header claims, a CAF file with an empty data chunk with -4 frames, an AIFF file with an empty sound chunk with -8 bytes. In such a track afReadFrames returns 0 at the beginning, but afSeekFrame to any positive frame goes to a position before the first frame, where afReadFrames delivers bytes of the header as sound. (For files whose sample rate is a positive number; about a rate of 0 see C84.)", "quantifier": "all contents of files, all positions the file is given at, both byte orders of the machine, all behaviours of its floating point; for the consequences, all tracks of uncompressed sound", "why_tests_cant": "The sizes come from 32- and 64-bit fields of the file and are subtracted, divided and wrapped; a test samples a few of the 2^n headers, and only hostile or truncated ones show a negative number.", "anchors": ["libaudiofile/Track.cpp: Track::computeTotalFileFrames", "libaudiofile/NeXT.cpp, libaudiofile/WAVE.cpp, libaudiofile/AIFF.cpp, libaudiofile/AVR.cpp, libaudiofile/IFF.cpp, libaudiofile/SampleVision.cpp, libaudiofile/IRCAM.cpp, libaudiofile/VOC.cpp, libaudiofile/NIST.cpp, libaudiofile/CAF.cpp: readInit", "libaudiofile/format.cpp: afGetFrameCount, afGetTrackBytes, afGetDataOffset, afSeekFrame", "libaudiofile/data.cpp: afReadFrames"]}
{"id": "C83", "title": "sfinfo tells what is in the files", "statement": "sfinfo, for any command line of options and files, any contents of the files, on either kind of machine: an option counts wherever it stands among the files; the reports printed are those about the files that open, in the order given, and no other file affects them; each gives the file format's name and label, bytes, offset, channels, frames and rate as the library's calls do, and frames divided by rate as the duration; every format that opens has a name and every codec too, so nothing is printed as unknown and every handle is closed; two files with the same 'Data Format' line store samples the same way (codec, or kind, width and byte order). If the text of the first copyright chunk has a zero byte, the text up to it is printed. Not so: that the exit status tells whether files could be opened (it is always 0); that the copyright printed is the file's (a text without a zero byte, as AIFF and 8SVX files have it, is printed with whatever follows in memory, read beyond the end of its block).", "quantifier": "all command lines, all files and contents, all memory contents behind a block, both byte orders of the machine", "why_tests_cant": "The over-read depends on what the allocator left behind the block and usually shows nothing; that no two storages share a description, and no openable file lacks a name, ranges over all formats a file can claim.", "anchors": ["sfcommands/sfinfo.c: main", "sfcommands/printinfo.c: printfileinfo, printshortinfo, copyrightstring", "libaudiofile/query.cpp: afQueryPointer", "libaudiofile/Miscellaneous.cpp: afGetMiscIDs, afGetMiscType, afGetMiscSize, afReadMisc"]}
{"id": "C84", "title": "Sample rates in reading", "statement": "The library converts every position and count between the sample rate of the file and the one the caller asked for, in double arithmetic. For any rounding to nearest, any sample rate between 2^-900 and 2^900 (so any positive whole number a header can hold), any complete track of at most 2^49 frames and any sequence of reads, seeks, tells and format changes these conversions change nothing: the answers are those of C12. A caller who asks for another rate with afSetVirtualRate is told the number of frames the track has at that rate, to within a frame; a negative rate is refused and changes nothing. Not so: that the sound is then delivered at that rate. Nothing is resampled: at half the rate the first half of the frames is delivered and the second never; at twice the rate reading with a conversion claims twice the frames and stores nothing in the second half, and a compressed track read in one request delivers nothing; seeks go to positions other than the ones asked for, and setting the rate while reading moves the position, so frames are delivered twice. Not so: that every file that opens can be read. If its rate is 0, infinite or no number (such files open), afGetFrameCount and afTellFrame report -2^63 and no frame can be read. Zero and NaN are accepted by afSetVirtualRate.", "quantifier": "all tracks, all sequences of calls, all sample rates, all roundings to nearest", "why_tests_cant": "That the product and quotient of rounded numbers always rounds back to the frame it started from is a claim about all positions and all rates; tests use 44100 and a few others.", "anchors": ["libaudiofile/modules/ModuleState.cpp: ModuleState::setup", "libaudiofile/format.cpp: afSetVirtualRate, afSeekFrame, afTellFrame, afGetFrameCount", "libaudiofile/data.cpp: afReadFrames"]}
{"id": "C85", "title": "Sample rates in writing", "statement": "Whatever the sample rates of the file and of the caller, calls of afSetVirtualRate between writes included, as long as the counts stay numbers of 64 bits, what a session of writes, synchronizations, format and rate changes and calls of afGetFrameCount leaves in the file, the numbers of its header included, is what the same session leaves without the counting and at equal rates. If the rate is a positive whole number r and the number of frames written times r is below 2^53, afGetFrameCount always reports the number of frames accepted so far. Not so for other rates: at 22254.5454... Hz, after seven frames and a call of any afSetVirtual function, it reports six, since the quotient of doubles is cut off instead of rounded. Nor when the caller's rate changes: seven frames written at 8000 Hz are reported as eight when 16000 Hz is set, and as none when 0 is.", "quantifier": "all tracks, all sequences of calls, all rates and roundings; for the count, all whole rates and all roundings that leave doubles alone", "why_tests_cant": "Whether a product divided by its factor gives the number again depends on the rounding for each pair of count and rate; one out of fourteen counts fails at some rates and none at 44100.", "anchors": ["libaudiofile/modules/ModuleState.cpp: ModuleState::setup", "libaudiofile/data.cpp: afWriteFrames", "libaudiofile/format.cpp: afGetFrameCount", "libaudiofile/openclose.cpp: afSyncFile, afCloseFile"]}
{"id": "C86", "title": "Error reports", "statement": "Every error is reported once, to the error handler in force when it happens: the one last given to afSetErrorHandler, the library's own (which prints to the standard error) if there was none, nobody if it is NULL. afSetErrorHandler returns the handler that was in force, so that giving it back restores it. A handler gets the code and a terminated string in a buffer of 1024 bytes, the first 1023 bytes of the message, which does not depend on what was in that buffer before; names of files are in it as they are, whatever characters they have. The message for an AIFF-C file in one of Apple's compressions contains the name that the file gives to its compression, if that name is there. It is false for a file that ends within the name: then the message contains bytes of uninitialised memory, and may read beyond the buffer of the name.", "quantifier": "all histories of errors and calls of afSetErrorHandler, from handlers too; all formats of strings and integers, all arguments, all contents of memory", "why_tests_cant": "Histories and messages are unbounded, and what is on the stack is not under the control of a test.", "anchors": ["libaudiofile/error.c: afSetErrorHandler, _af_error, defaultErrorFunction", "libaudiofile/openclose.cpp: afOpenFile", "libaudiofile/AIFF.cpp: AIFFFile::parseCOMM, AIFFFile::readPString"]}
