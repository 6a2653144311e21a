{
 "C04": [
  "proved",
  "Exact: the failure set is proved to be exactly -1..-7 (C04_alaw_error_bound_fails is the negation of the unrestricted claim)."
 ],
 "C12": [
  "proved",
  "For tracks whose data section contains the frames the header promises (hypothesis Intact), all codec kinds with byte-packet decoding (PCM, G.711, IMA/MS ADPCM), equal virtual and file rates. Truncated files: negations proved."
 ],
 "C13": [
  "proved",
  "For unlimited disk space. Padding of an incomplete last packet is determined (previous packet) or uninitialised memory when fewer frames than one packet were written (negation proved)."
 ],
 "C15": [
  "proved",
  "For intact tracks of known length; for unknown length with a conversion the negation is proved."
 ],
 "C16": [
  "proved",
  "Both halves proved."
 ],
 "C17": [
  "proved",
  "Positive and negative halves proved; with assertions compiled in even PCM fails (C17_negation_assertions)."
 ],
 "C06": [
  "proved",
  "Module level for all sample sizes; end to end for integer formats (C06_file_order_irrelevant)."
 ],
 "C18": [
  "proved",
  "Integer file formats of every width, sign, byte order and channel count with a virtual format no wider than the file's; float and double read and written as such. Same or different hosts."
 ],
 "C48": [
  "proved",
  "Float arithmetic is C10, channel mixing C11; 24-bit swapped: negations proved."
 ],
 "C10": [
  "proved",
  "Any monotone rounding that keeps clip values; NaN and minClip >= maxClip: negations proved."
 ],
 "C11": [
  "proved",
  "All channel counts and frames of integer samples; 4->1 and 4->2 when the sum fits, negation at full scale."
 ],
 "C21": [
  "proved",
  "Per-block encoder/decoder tracking for both layouts; negations proved: in a WAVE file the decoded frames are one frame late and the last frame of each block is dropped."
 ],
 "C22": [
  "proved",
  "Exact conditions (iff) for both IMA layouts and for MS ADPCM with one or two channels; negations for everything unchecked."
 ],
 "C23": [
  "proved",
  "For 1-2 channels and coefficient pairs with |a|+|b| <= 768 (includes the seven standard pairs); larger coefficients from a hostile file overflow: negation proved."
 ],
 "C25": [
  "proved",
  "Chunk sizes nonnegative; negative offsets: negation proved."
 ],
 "C26": [
  "proved",
  "Setup-level 16-bit truncation of marker ids: see C30."
 ],
 "C27": [
  "proved",
  ""
 ],
 "C28": [
  "proved",
  "AIFF/AIFF-C and WAVE parameter tables."
 ],
 "C29": [
  "proved",
  "Types are not compared between set and get: C29_type_mismatch_not_refused."
 ],
 "C42": [
  "proved",
  "All metadata calls, afReadFrames, afWriteFrames, afSeekFrame/afTellFrame, afSyncFile."
 ],
 "C30": [
  "proved",
  "Every history and format."
 ],
 "C31": [
  "proved",
  "Negation proved for afSetVirtualChannels / afSetVirtualRate."
 ],
 "C43": [
  "proved",
  "Heap-level: histories on setups and handles opened for writing. FLAC setups are refused by the model."
 ],
 "C32": [
  "proved",
  "All accepted setups and histories; empty files: negation proved."
 ],
 "C33": [
  "proved",
  "C33_lost covers all other accepted setups."
 ],
 "C49": [
  "proved",
  "The conversion to float is a parameter."
 ],
 "C36": [
  "proved",
  "C36_large_lost proves the failure above."
 ],
 "C38": [
  "proved",
  "Exact: terminates under stated conditions on the chunk lengths for every file; endless files exhibited outside them. The readers of NeXT, IRCAM, AVR, SampleVision, NIST and raw files have no loop over the file's contents and are total functions in the model."
 ],
 "C34": [
  "proved",
  "Five compressions; packet sizes of ADPCM files: C34_wave_packets; widths other than whole bytes: C34_odd_width_lost."
 ],
 "C40": [
  "proved",
  "WAVE, AIFF, IFF."
 ],
 "C41": [
  "proved",
  "C41_wave_ids_wrap, C41_aiff_comments_lost are the failures."
 ],
 "C50": [
  "proved",
  "Exact list of what is read back."
 ],
 "C51": [
  "proved",
  "Positive theorems per format (C51_*_defined) under conditions stated on the bytes alone (Spec/Whole.lean), for every content otherwise; negations for files without them (C51_*_short, C51_*_none, C51_wave_overrun, C51_caf_data_first). FLAC is not modelled."
 ],
 "C35": [
  "proved",
  "IMA: the frames of an incomplete last packet are lost (C35_ima_frames_lost)."
 ],
 "C52": [
  "proved",
  "Gain and loop markers must fit 16 bits; C52_aiff_lost is the failure."
 ],
 "C53": [
  "proved",
  "Every history of setup calls and both host orders."
 ],
 "C54": [
  "proved",
  "Exact for every rate."
 ],
 "C57": [
  "proved",
  "C57_within_buffers (every packet), with C57_damaged_packet (a frame count beyond the buffers, for every configuration) and C57_reads_behind_packet (a truncated packet whose samples depend on memory behind it)."
 ],
 "C56": [
  "proved",
  "The finished packet; the room taken by a compressed attempt that is abandoned for an escape packet is not bounded."
 ],
 "C37": [
  "proved",
  "PCM, G.711, IMA and ALAC descriptions, BER integers and packet tables."
 ],
 "C58": [
  "proved",
  "Without afSyncFile; C58_sync_lost proves that afSyncFile destroys the file. The encoder search is a parameter (any admissible choice)."
 ],
 "C59": [
  "proved",
  "For sound files; the failures outside are proved (C59_no_table, C59_large_packet, C59_seek_outside, C59_seek_empty)."
 ],
 "C64": [
  "proved",
  "Setups and handles opened for writing. Not followed: File, modules, packet tables, items of compression parameter lists; handles opened for reading."
 ],
 "C65": [
  "proved",
  "Under the conditions of Spec/Buffers.lean; the overflows outside them are proved (C65_long_packets, C65_wide_blocks, C65_empty_blocks, C65_many_channels)."
 ],
 "C66": [
  "proved",
  "Dying between the writes of a single afSyncFile, and power loss (writes the system accepted but did not store), are not modelled. The failures for VOC, CAF, Sample Vision and unsynced files are proved."
 ],
 "C68": [
  "proved",
  "ALAC tracks and errors of update() and of seeking are not modelled here. The silent loss of the last packet and the trouble with retries are proved as negations."
 ],
 "C69": [
  "proved",
  "For tracks of known length on seekable files; ALAC and the reads that parse the header are not modelled here."
 ],
 "C77": [
  "partial",
  "all formats but FLAC and ALAC: WAVE, NeXT, AVR, IRCAM, AIFF, AIFF-C, 8SVX, CAF, NIST, SampleVision, VOC (sound of type 1 only if nothing follows it: refuted otherwise, as the statement says); ADPCM files of other programs are in C80"
 ],
 "C86": [
  "proved",
  "Full for the directives %s, %d, %zd, %jd; the negation C86_apple_refuted is for files that end within the name of the compression (AIFF.cpp:363 ignores the result of readPString)."
 ]
}