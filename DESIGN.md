# Formal model of mpruett/audiofile in Lean 4

## Trusted base
* Lean 4.33.0's kernel. Every theorem depends at most on `propext`, `Classical.choice`, `Quot.sound` (check with
  `#print axioms`); no own axioms, no compiled evaluation. `decide +kernel` is used for closed finite facts (tables of
  256 entries, concrete witnesses); it is evaluated by the kernel.
* The reading of `/repo/libaudiofile` that produced the model: each definition cites the file and lines it models.
  Nothing in the C++ is executed here, so the fidelity of that reading is part of the trusted base.
* Platform: `int` 32 bits, `long`/`off_t`/`AFframecount`/`size_t` 64 bits (LP64); `>>` on negative signed values is
  arithmetic; conversions to narrower signed types wrap; host byte order is a parameter of the theorems (so "written on
  one host, read on another" is covered). The library is compiled with `-DNDEBUG` (Makefile.am: `AM_CXXFLAGS` contains
  it), so `assert` is absent; where an assert would have mattered a separate theorem says so.
* Undefined behaviour in the C (out-of-bounds access, null pointer, use of uninitialised memory, overflow where it
  matters) is a separate outcome (`none`, `Except.error`, `Err.undefined`), never assumed away.

### Parameters that stand for behaviour outside the model
| parameter | stands for | what is assumed |
|---|---|---|
| `rnd` (FloatInt, Extended) | rounding of float/double arithmetic | monotone and exact on the values named in the theorem |
| `Float32`, `Float64` records (IRCAM, CAF headers) | conversion double ↔ IEEE bytes | only what the theorem states (the rate in question survives) |
| `conv v` (Reading, Writing, PacketTrack) | the composition of frame-wise conversion modules | frame by frame; `Model/Convert.lean` gives the concrete one |
| `Choice` (ALAC) | what the encoder's search for coefficients and mixing settles on | its values are in the ranges the format has fields for |
| `m`, `rest`, `old`, `stale` | previous contents of buffers | nothing |
| the `File` object | the operating system's file | never fails, unlimited space, seekable; short reads only at the end of the file |

## Layout
* `Verif/Model/*`  – executable definitions, with citations.  `Verif/Spec/*` – small independent specifications used in statements.
* `Verif/Proof/*`  – helper lemmas.  `Verif/Props/*`  – the property theorems (`Cnn_…`) and the non-vacuity examples.
* `tools/manifest.py` generates `MANIFEST.json` from the names of the theorems and `tools/status.json`;
  `tools/mutate.py` runs seeded bugs (`seeded/LOG.jsonl`).

## What is modelled
| source | model |
|---|---|
| modules/G711 tables and functions (g711.c) | `G711` |
| FileHandle.cpp/File.cpp integer fields, byteorder.h | `Fields`, `Bytes`, `CInt` |
| SimpleModule.{h,cpp} (swap, 3→4 bytes, sign, width, int↔float, clip, channels) | `Convert`, `FloatInt` |
| ModuleState.cpp `arrange`, setup, reset, sync; data.cpp; format.cpp seek/tell/count and virtual format; RebufferModule.cpp; FileModule.cpp; BlockCodec.cpp; PCM.cpp; G711.cpp runPull/runPush/sync/reset | `Reading`, `Writing`, `Virtual`, `Convert` |
| ModuleState.cpp `setup` (buffer sizes), and which bytes of which buffer all modules touch | `Buffers` |
| modules/ALAC.cpp, PacketTable.cpp | `PacketTrack`, `ALAC/Track` |
| IMA.cpp, MSADPCM.cpp (block coders and decoders) | `IMA`, `MSADPCM` |
| alac/*: ALACBitUtilities, ag_enc/ag_dec, dp_enc/dp_dec, matrix_enc/matrix_dec, ALACEncoder/ALACDecoder packets, cookie | `ALAC/*` |
| extended.c | `Extended` |
| Setup.cpp, util.cpp, Marker/Loop/Instrument/Miscellaneous/Track setup calls, every format's `completeSetup`, openclose.cpp opening for writing | `Setup` |
| Marker.cpp, Loop.cpp, Instrument.cpp, Miscellaneous.cpp, pv lists (pcm.cpp/aupvlist.c) on handles, access checks | `Meta`, `PvList`, `Access` |
| the same calls with their structures, `malloc`/`free` and pointers: setups made, changed, copied, freed; handles opened for writing, changed, closed; failing opens; virtual formats and channel matrices | `Heap`, `HeapCalls`, `HeapHandle`, `HeapWorld` |
| Raw.cpp; recognisers of all formats (incl. FLAC), `_af_identify` | `Files/Raw`, `Identify` |
| `fmtok` of the codecs, opening for reading as far as the track goes | `Codec` |
| NeXT, AVR, IRCAM, VOC, WAVE, AIFF/AIFF-C, IFF/8SVX, SampleVision, NIST (with its uses of snprintf, strstr, sscanf), CAF files: header writers, updates, parsers | `Files/*`, `Chunks`, `Disk` |
| a program that dies between syncs (File.cpp `write` is unbuffered) | `Crash` |
| a program that dies inside a sync: the `write` calls of `update` for NeXT, AVR, NIST, WAVE, IFF, the first of AIFF | `Torn` |
| sfconvert: the command line, the setup, the copying loop, the files it leaves; not: messages, the exit of a codec that refuses, a file converted onto itself, block codecs, ALAC, FLAC | `SfConvert` |
| a program's calls down to the bytes of the file and back (data.cpp, PCM.cpp, G711.cpp, openclose.cpp joined) | `Program` |
| writes that take less than they are given: data.cpp:42-123, FileModule.cpp:50-117, PCM/G711/BlockCodec `runPush`, ModuleState.cpp:230-242, openclose.cpp:408-462 | `Faults` |
| reads that deliver less than they are asked for: data.cpp:125-236, FileModule.cpp:40-88, PCM/G711/BlockCodec `runPull`, RebufferModule.cpp:85-169 | `ShortReads` |
| modules/FLAC.cpp, FLACFile.cpp (library built with FLAC), with data.cpp and ModuleState.cpp around them | `FLAC` (libFLAC by its documented behaviour) |
| openclose.cpp:271-405 for writing with all thirteen `completeSetup`s, `format_ok` of the codecs and ModuleState.cpp:52-100; the caller's setup afterwards | `Create` |
| query.cpp, units.cpp tables | `Query` |
| openclose.cpp: opening, identifying and closing as far as descriptors, virtual files and `File` objects go; File.cpp; af_vfs.cpp | `Descriptors` |
| sfcommands/sfinfo.c, sfcommands/printinfo.c (number formatting left open, miscellaneous chunks of the file given) | `SfInfo` |
| modules/ModuleState.cpp `setup` with two sample rates; format.cpp `afSetVirtualRate` | `Rate` |
| error.c; AIFF.cpp `readPString` and the message of AIFF.cpp:384 | `ErrorReport` |

### Not modelled
libFLAC itself (FLAC files: C70, C71 assume its documented behaviour), the wording
of error messages (except two; C86), memory allocation failure, the ALAC encoder's numeric search and
`EncodeStereoFast` (not used by the library's settings), the room a compressed ALAC attempt takes before it is abandoned
for an escape packet, memory of handles opened for reading.

## Method
* Reading and writing: state machines refined to a cursor over a list of frames (`Spec/Cursor`), induction over call lists.
* Files: a session (`Model/Disk`) is a list of events (data, sync); the file's bytes are computed in closed form by an
  invariant over the session, then the parser is run symbolically on them (`Rd` monad lemmas in `Proof/Disk`, chunk
  walks in `Proof/Chunks`).
  Sessions are the histories in which data goes right behind data; `Model/Writing` shows when the file modules do that
  (C13, C17) and C17's negations are the histories that are left out.
* Codecs: lockstep induction of encoder and decoder; explicit ranges for the absence of overflow.
* Memory: an access to a freed, null or too small block is a fault and addresses are never used again, so a proof of absence
  of faults covers dangling pointers. Triples `Triple P c Q` include the frame. The memory of the `File`, the modules, the
  packet table and the items of compression parameter lists is not followed.
* Metadata and setups: simple maps as specifications, induction over histories.
* A property that is false of the code has its failure proved as a theorem with a witness (often for a whole class of
  inputs), and the true part proved with the weakest hypotheses found.

## Properties
| id | model and proof | status |
|----|-----------------|--------|
| C01–C04 | tables of 256 codes by kernel evaluation lifted to ∀, segment arithmetic for all 2^16 samples | C04 false for −1…−7, set of failures characterised exactly |
| C05–C06 | byte lists, host order a parameter; list induction | proved |
| C07–C09 | SimpleModule over `Int` with explicit wrap functions | proved |
| C10 | affine map + clip + truncation over rationals with a rounding parameter | false for NaN and for mappings with minClip ≥ maxClip (no clipping module): negations |
| C11 | matrix application, exact sums | false for 4→1 and 4→2 at full scale |
| C12–C17 | refinement to a cursor | C16 false for empty tracks; C17 false for block codecs off packet boundaries and for PCM beyond 2 GiB |
| C18 | composition of C12/C13 with the conversions | proved |
| C19–C23 | invariants and lockstep induction; table-index failures are outcomes | C22 false: exact condition proved |
| C24 | extended.c over dyadic numbers | proved |
| C25–C30 | handle and setup state machines, induction over histories | C25 (negative seeks), C30 (markers, misc): negations |
| C31, C53 | setup calls and completeSetup of every format | C31: virtual channels/rate unchecked; C53: IFF |
| C32, C33, C49 | fixed headers (NeXT, AVR, IRCAM) | each false on a named class |
| C34–C37, C54, C58, C60, C61 | WAVE, AIFF/AIFF-C, VOC, CAF, IFF, SampleVision, NIST, ALAC in CAF: whole sessions | see findings |
| C38 | chunk walks with fuel; a walk that needs more than any fuel is endless; `Spec/Walk.lean` says where the chunk headers of a file are | VOC terminates; AIFF, IFF, WAVE, CAF terminate if the lengths in the reached headers let the walk advance (invariant: the walk's position is one of the spec's header offsets; measure: what is left of the file); endless files outside the conditions; WAVE files with length 2^32-1 are never opened |
| C39 | recognisers of all formats, `_af_identify`; composed with the shapes of written files | proved: every recogniser decides its signature, signatures exclude each other, file shapes have the signature |
| C40, C41, C50, C52 | chunk layouts, markers, misc data, instruments, AES through files | see findings |
| C42 | guards of all calls | proved |
| C43, C64 | the C structures with their pointers in a memory of blocks (`Model/Heap*`), separation logic (`Spec/Sep`, `Proof/Heap`): every call refines the call on plain values; induction over histories on any number of setups and handles | proved for setups and handles opened for writing |
| C65 | sizes and counts only (`Model/Buffers`): every access is checked against the capacity of its buffer; invariant over call lists: capacities cover 1024 frames of every format in the chain and a packet on both sides of the codec; composed with C62 for opened files | proved; overflows outside the conditions proved on concrete tracks and files |
| C66 | a session that stops without its final update (`Model/Crash`); the events after the last sync only append (`mdied_after`), so the file is the closed file of the history up to the sync with audio behind it; the parsers are run on such files (round-trip proofs generalised to a tail behind the data) | proved; false for VOC, CAF, SampleVision (witnesses) |
| C75 | `update` as a list of writes at given places (`Model/Torn`), proved to do what the model of `update` does; every prefix of the list leaves a header whose fields are from one of the two syncs, and the parsers are run on such headers (round-trip proofs generalised to lengths of RIFF and FORM that are behind) | proved; negation for AIFF |
| C76 | the command as a function from the files to the files (`Model/SfConvert`); keywords against a small specification (last one counts) and C73 for what is asked of the library; the loop for arbitrary readers and writers by induction; the rest composes C62 (what opens), C67 (what plays), and a proof that a read reports all frames only if their bytes are there (`Proof/CutShort`) | proved; negations as in the statement |
| C77 | files described by the formats' definitions (`Spec/Foreign`), not by the writers of the library; the models of the readers run on these descriptions, by induction over the lists of unknown chunks and blocks; playing as in C76 (`Proof/Opens`) | partial: WAVE, NeXT, AVR, IRCAM, AIFF, AIFF-C, 8SVX, Core Audio, NIST SPHERE, SampleVision, Creative Voice (`C77_voc_partial`: nothing after a sound of type 1); negations as in the statement |
| C78 | the write and read machines of C13/C15 with the codecs of C19-C26 as parameters (`Model/Adpcm`), on the files of C34, C35 and C37; `Spec/Adpcm`: `Transcoded` (decoder after encoder, block for block) and `Plays`; the blocks of a session by induction, reading back by refinement to a cursor | proved; the coefficients of MS ADPCM are the default ones (the model of the reader checks but does not keep them) |
| C79 | the decoders of C19-C22 against definitions by position (`Spec/ImaDecoder`, `Spec/MsDecoder`): the code of frame i of channel c is found by arithmetic on its place in the block, the samples by a fold; induction over groups, channels and frames | proved |
| C80 | the chunk walks of C77, generalised to formats with blocks, the block decoder of C78 and the definitions of C79 (`Spec/ForeignAdpcm`): the sound is cut into blocks, a block gives rows of frames. The model of the WAVE reader does not keep the table of coefficients: for Microsoft ADPCM the theorem is about files with the standard seven | proved |
| C81 | `Model/Descriptors`: the descriptor table, open file descriptions, virtual files and handles of a process; `File` objects with their destructors; the outcome of `_afOpenFile` is arbitrary. A ledger (`Spec/Descriptors`) kept from calls and results; invariant over histories. Uses of a `File` as a tree of operations, induction for virtual against real files | proved; two negations |
| C82 | The readers of `Model/Files` on arbitrary bytes; postconditions of every reader (`Proof/Files/Counts`), carried through `openRead`; the negations are concrete files evaluated by the kernel. Consequences in `Model/Reading` for any track with a negative number of frames | proved; five negations (IRCAM, VOC, NIST, CAF, AIFF) |
| C83 | `Model/SfInfo` on top of `openRead`, the query tables and the miscellaneous calls: options, reports, the loop over files. Induction over the words and the files; descriptions of storages told apart by evaluating all 137 of them; the copyright block with arbitrary memory behind it | proved; two negations |
| C84 | `Model/Rate`: setup, seek, tell, count and afSetVirtualRate with rates as IEEE doubles (NaN, infinities, rounded operations, `llrint`), on top of `Reading`. Error bounds of two rounded operations for one rate; then the runs of `Reading` and of `Rate` are the same; counts at another rate to within 5/8; special values by cases | proved; five negations |
| C85 | `Model/Rate` (writing half) on top of `Writing`: setup with rates, the cast that truncates, a concrete binary64 rounding `roundDouble`, proved to round to nearest (`Proof/RoundDouble`), so that the counts of C84 and C85 hold for it without a hypothesis on the rounding. The counts commute with everything else that writing does; exact products for whole rates | proved; one negation |
| C86 | `Model/ErrorReport`: the error function as the state of a history of events (a handler's own calls are the next events), the directives %s, %d, %zd, %jd of `vsnprintf` on buffers of finite extent, `readPString` on uninitialised stack. Not modelled: %u, %x, %.30g (their messages), and that the 296 calls of `_af_error` pass arguments that fit their formats | proved; one negation |
| C67 | the models of calls, chain, codec and file joined (`Model/Program`); a frame survives encode, file, decode (`frame_back`); with the file round trips (C32–C37, C49, C54, C60, C61), recognition (C39), well-formedness of opened tracks (C62) and the cursor refinement (C12); `C67_modules` derives the bytes from the model of the modules (C13, C17) | proved for uncompressed and G.711 tracks; virtual rate = file rate, constant virtual format while writing |
| C68 | `Model/Writing` with an oracle for every write (`Model/Faults`); success of all calls implies simulation by the fault-free model (`run_sim`); an invariant for a torn file (`Part`) for the first failure; packet codecs: the last packet on its own (`close_block`) | proved; lost last packets and retries are proved negations |
| C69 | `Model/Reading` with an oracle for every read (`Model/ShortReads`); specification: a cursor that may lose its place (`Spec/ShortReads`); simulation by the fault-free model as long as `filemodhappy` is set (`*_sim`), an invariant for a reader that is lost (`Alive`), and positions bound what a read needs to see (`*_enough`) | proved; what a lost reader gets is shown by negations |
| C70 | libFLAC's decoder as a list of blocks with `process_single` and `seek_absolute`, the module's per-channel buffers as memory (`Model/FLAC`); specification: the cursor of C12 over the frames of all blocks (`Spec/FLAC`); invariant `Holds`: the undelivered part of the buffer is the stretch of frames that follows the position; induction over the blocks left | proved |
| C71 | the encoder as the list of frames it was given, finished or not, failed or not; libFLAC as an encode/decode pair with a losslessness law (`Lib`, `Lossless`; a concrete instance in `Props/FLACExamples`); induction over the calls; sample conversion both ways by arithmetic; round trip by C70 | proved |
| C72 | the tables and queries transcribed (`Model/Query`); a program that reads a list (`Spec/Query`); compared with the acceptance table of C73 and the opened handles of C30, by cases on the format | proved; six negations |
| C73 | a request is what the calls asked for (`Spec/Create`, with what was never asked for left open) and a table gives the outcome; `Holds` relates a setup to a request through every call; one lemma per `completeSetup` (`X_decides`), refusals by `grind` over the flags | proved; raw with block or packet codecs: undefined (negation) |
| C74 | `completeSetup` is idempotent on what it leaves behind (`X_again`); induction over the number of files | proved; setups changed between files: negations |
| C44–C46, C55–C57 | ALAC codec | C57 with the list of header faults (`Spec/ALACPacket.lean`) that break it |
| C47, C59 | packet tables, safety of reading packets | C59: exact failures proved |
| C48 | chain of modules reaches the requested format | 24-bit non-native order: false |
| C62 | a Hoare logic over the parsers (`Proof/Files/Post`), for all files and fuels; the codec's check on top | proved; negative channel counts in NeXT/CAF are a finding. `bytesPerPacket` is not wrapped to 32 bits in the model |
| C63 | raw files opened with the setup they were written with; creation of codecs without parameters | proved; failures outside proved |
| C51 | use of uninitialised memory while opening | for each format: none on files that have what they announce (`Spec/Whole.lean`; program logic `Def`); false for short or incomplete files |

## Findings: where the code violates what a user would expect (each proved as a theorem)
* C04: A-law encoding of −1…−7 is off by more than the quantiser's bound (`C04_alaw_error_bound_fails`, `…_failure_is_exactly`).
* C10: NaN reaches an undefined float→int cast; a mapping with minClip ≥ maxClip is not clipped.
* C11: the 4→1 and 4→2 matrices sum to more than 1 and wrap at full scale.
* C12: short reads of truncated block files return stale frames as if they were read.
* C13: the padding of an incomplete block when less than one block was written is uninitialised memory.
* C16: seeking past the end of an empty track puts the position at −1: PCM reads header bytes as audio, block codecs and ALAC crash.
* C17/C58: `afSyncFile` between packets writes a pending packet twice (block codecs); on ALAC it destroys the file;
  on a PCM track between 2 and 4 GiB the place is lost (kept in an `int`) and all later writes fail.
* C21: IMA WAVE files come back one frame late and lose the last frame of each block.
* C22: step index, block size, channel count and predictor of damaged ADPCM blocks are not checked.
* C25: negative offsets in `afSeekMisc` reach memory outside the buffer.
* C43/C64 (seen while reading, not reachable or outside the model): WAVE.cpp:1016-1026 frees the loops of the copied setup and
  keeps the pointer, which would be freed again, if the flag `loopSet` were ever set (no call sets it); `afInitMarkIDs` with a
  negative count leaves a null array with a count that `afInitMarkName` follows; a second `fmt `/`MARK` chunk leaks the first
  one's data when a file is read.
* C30: repeated marker/misc ids are accepted; marker ids are cut to 16 bits.
* C31: `afSetVirtualChannels`/`afSetVirtualRate` accept anything.
* C32: an empty NeXT file reports 2^32−4 bytes. C33: AVR loses channel counts > 2 and rates ≥ 2^24. C36: VOC block sizes wrap at 2^24.
  C49: IRCAM in the foreign byte order cannot be read. C54: IFF rates ≥ 65536 wrap. C34: WAVE widths are rounded up to bytes.
* C35: AIFF-C IMA loses the frames of an incomplete last packet. C41: AIFF loses marker comments. C52: AIFF loses loop counts.
* C38: WAVE, AIFF, IFF and CAF parsers do not terminate on files with negative or wrapped chunk sizes.
* C48: 24-bit virtual formats of the foreign byte order are swapped at the wrong place.
* C51: parsers use fields that short files do not set; formats that a file never describes.
* C53: IFF silently replaces the sample format.
* C57: a damaged ALAC packet makes the decoder write beyond its buffers; only the header faults listed in `Spec/ALACPacket.lean` can do it (`C57_within_buffers`). A truncated packet is read past its end without an error (`C57_reads_behind_packet`).
* C59: ALAC tracks without packet table, with oversized packets or with too many frames leave their buffers.
* C65: heap overflows. After a seek, up to `framesPerPacket − 1` frames are converted at once (data.cpp:184-203) in buffers made for
  1024: reading an ALAC file (as this library writes it) or a WAVE file with IMA blocks of more than 1024 frames as float after
  seeking into a packet writes behind a heap buffer (`C65_long_packets`). The size of ADPCM blocks is not compared with the buffers
  (`C65_wide_blocks`) nor with 0 (`C65_empty_blocks`: division by zero). Buffer sizes are `int`s that wrap for 2^20 channels
  (`C65_many_channels`).
* C66: after a sync, further audio overwrites the VOC terminator, the SampleVision trailer (with the rate) or stands where a CAF reader
  expects chunks; a crash then leaves a file that cannot be opened, has another rate or is read for ever. AIFF and IFF files that were
  never synced have a FORM length of 0 and open with uninitialised formats.
* C68: `afSyncFile` reports success although the write of the last packet failed (`filemodhappy` is looked at between `sync1` and
  `sync2`, ModuleState.cpp:230-242, and `sync2` writes); `afCloseFile` returns 0 whatever happens; a short count of `afWriteFrames`
  leaves out frames, and parts of a frame, of the failing chunk that did reach the file, so that writing the rest again misplaces it.
* C69: after a short read of a damaged or slow source the position of the file and `nextfframe` have moved while `nextvframe` has not:
  reading again delivers frames from the wrong place, and `SimpleModule::runPull` (SimpleModule.cpp:26-30) turns missing frames into
  counted ones that were never stored (all of them in a truncated ADPCM file read with any conversion).
* C70: `FLACDecoder::runPull` never reduces the chunk's frame count and never clears `filemodhappy`: a truncated FLAC file reads as complete,
  with frames that were never stored (`C70_negation_truncated`); the decoder is started at the first audio frame, so it does not know the
  length and a seek to the end fails inside libFLAC, which is never flushed: all later seeks fail silently and deliver the old buffer
  (`C70_negation_seek_end`); a block with more channels than STREAMINFO says overruns `m_buffer` (`C70_negation_more_channels`); a stream
  of unknown length reads as empty (`C70_negation_unknown_length`).
* C71: `afSyncFile` finishes the FLAC encoder, so that nothing can be written afterwards (`C71_negation_write_after_sync`); a refused
  sample rate leaves a handle whose first write dereferences null (`C71_negation_refused`); a full disk is never reported
  (`C71_negation_disk_full`).
* C72: marker queries are not range checked (`C72_negation_marker`); FLAC files are said to be implemented in builds without FLAC
  (`C72_negation_flac`); NIST and raw take compression types they do not list (`C72_negation_nist`, `C72_negation_raw`); the maximum number
  of markers is not enforced (`C72_negation_markers`); formats without metadata get default metadata (`C72_negation_default_metadata`).
  afQueryLong and afQueryPointer leak the answer when it is of the other type (query.cpp:215, 249).
* C73: a raw file in IMA ADPCM, MS ADPCM or ALAC passes every check and then uses an uninitialised chunk size
  (`C73_negation_raw_blocks`); what a codec refuses is refused only after the existing file of that name was truncated.
* C74: `completeSetup` writes its defaults into the caller's setup: later files inherit byte order, width, channels and compression
  (`C74_negation_byte_order`, `…_ulaw_after`, `…_iff_then_next`, `…_flac_then_aiff`).
* C75: an AIFF file whose sync is cut short after its first write may not open (`C75_negation_aiff`): `update` should write the length of
  the FORM chunk last, as WAVE and IFF do.
* C76: sfconvert empties an existing output even if the library then refuses the setup; `byteorder`, offered by the usage text, is not
  parsed; 65536 frames of 32768 or more bytes overflow the `int` buffer size; an input rate that is not positive becomes 44100; a NIST
  file with a negative sample count converts "successfully" to an empty file.
* C77: `mBytesPerPacket` of a CAF description is not looked at, so samples in wider containers are misread; NIST SPHERE of one byte
  with `sample_coding pcm` is read as µ-law; G.711 SPHERE without `sample_byte_format` uses a byte order that was never assigned.
* C77: after a VOC block of type 1 everything to the last byte of the file is sound, other blocks too; an IRCAM file shorter than its
  1024-byte header opens with a data size of -1008 bytes and 2^63 - 504 frames; the fact chunk of an uncompressed WAVE file is believed;
  the compression byte of 8SVX files and their CHAN chunk are ignored.
* C78: IMA WAVE files lose every 505th frame of what was written (C21 at the level of whole programs); a CAF file with IMA ADPCM reports
  the padding of its last block as frames, an AIFF-C file does not report the frames of an incomplete last block.
* C81: afOpenFile for writing empties the file before it looks at the setup: a refused setup costs the old file (File.cpp:84, openclose.cpp:207-220). A failing afOpenFD closes the caller's descriptor, except when the mode is at fault (openclose.cpp:118-148): the caller cannot tell.
* C82: sizes that go negative: IRCAM.cpp:342 (file shorter than 1024 bytes), VOC.cpp:251 (file that ends with the block's fields), NIST.cpp:356-359 (negative sample_count), CAF.cpp:385 (data chunk shorter than 4 bytes), AIFF.cpp:460 (sound chunk shorter than 8 bytes). With a negative number of frames, format.cpp:127-130 moves a seek to totalvframes - 1, before the first frame, and reading there delivers header bytes.
* C83: printinfo.c:139-167 returns the copyright chunk's bytes without a terminating zero, and printinfo.c:128-133 prints them with `%s`: a read beyond the heap block for every ordinary text. sfinfo.c:119 returns 0 even when no file could be opened.
* C84: afSetVirtualRate changes the counts and positions (ModuleState.cpp:111,180-187) but no module resamples: half of the sound is lost, or frames are reported that were never stored. A file with sample rate 0 opens, and then afGetFrameCount is -9223372036854775808 and nothing can be read (0/0 in ModuleState.cpp:111). The other models (C12, C77, C82, …) take the rates as equal and positive, which C84 shows to be harmless.
* C85: ModuleState.cpp:195-196 casts `fframepos * rate / rate` to an integer instead of rounding it: at a rate like 22254.5454 Hz afGetFrameCount of a file being written loses a frame whenever the format is set (7 → 6). The file itself is not affected. And the position of the caller (ModuleState.cpp:111) is not converted when `afSetVirtualRate` changes the rate: 7 frames at 8000 Hz count as 8 at 16000 Hz.
* C86: AIFF.cpp:363 does not look at the result of `readPString`: a file that ends within the name of one of Apple's compressions puts uninitialised stack into the error message, and reads beyond the 256 bytes of the buffer if there is no zero in them.
* C60: SampleVision files with more than one channel open as mono with a wrong rate; unused name/comment fields come back as items;
  repeated syncs append 215 bytes each.
* C61: NIST opens uncompressed samples of at most 8 bits as u-law, passes NULL to `snprintf` for G.711 with a width of at most 8 bits,
  writes rates below 1 as 0 (unreadable), and reads unassigned variables when a number is missing.
* C62: NeXT and CAF files claiming 2^31 or more channels open with a negative number of channels.
* C63: raw setups with mono G.711 of at most 8 bits divide by zero; with ADPCM or ALAC the codec cannot be created and an unassigned variable is used; a data offset without data gives a file that cannot be opened.
