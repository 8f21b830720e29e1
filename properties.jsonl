{"id": "C01", "title": "Single-packet decrypt inverts encrypt", "statement": "After dvbcsa_key_set(cw,key), calling dvbcsa_encrypt(key,data,len) and then dvbcsa_decrypt(key,data,len) leaves all of memory exactly as it was, for every payload of fewer than 2^31+16 bytes (see C24 for the rest).", "quantifier": "all control words, all payload contents, all lengths 0 <= len < 2^31+16, all surrounding memory", "why_tests_cant": "2^64 control words times all payloads of all lengths; the test-suite has two vectors of 184 bytes", "anchors": ["src/dvbcsa_algo.c:dvbcsa_encrypt", "src/dvbcsa_algo.c:dvbcsa_decrypt", "src/dvbcsa_block.c", "src/dvbcsa_stream.c"]}
{"id": "C02", "title": "Single-packet encrypt inverts decrypt", "statement": "After dvbcsa_key_set(cw,key), dvbcsa_decrypt followed by dvbcsa_encrypt on the same buffer restores memory exactly, so every byte string of fewer than 2^31+16 bytes (see C24 for the rest) is a valid ciphertext.", "quantifier": "all control words, all payload contents, all lengths 0 <= len < 2^31+16", "why_tests_cant": "same domain as C01; no test decrypts arbitrary bytes then re-encrypts through the single-packet API", "anchors": ["src/dvbcsa_algo.c:dvbcsa_encrypt", "src/dvbcsa_algo.c:dvbcsa_decrypt"]}
{"id": "C03", "title": "The single-packet API computes DVB-CSA", "statement": "dvbcsa_key_set + dvbcsa_encrypt / dvbcsa_decrypt compute exactly the published DVB-CSA function (bit-level key permutation, 56-round block cipher in reverse CBC, nibble-register stream cipher with seven 5x2 S-boxes and adder-with-carry), written down independently of the optimised tables used in the code (encryption for payloads of fewer than 2^31+16 bytes; see C24 for longer ones).", "quantifier": "all control words and payloads, all lengths (encryption: below 2^31+16)", "why_tests_cant": "the optimised lookup tables (8x256 64-bit key permutation, 1024-entry carry table, packed 40-bit registers) can be wrong on inputs that two vectors never reach", "anchors": ["src/dvbcsa_key.c:kperm", "src/dvbcsa_stream.c:csa_stream_sboxes", "src/dvbcsa_stream.c:csa_stream_cfed", "src/dvbcsa_stream.c:csa_stream_B_sel", "src/dvbcsa_block.c:dvbcsa_block_sbox"]}
{"id": "C04", "title": "Payloads shorter than 8 bytes are left alone", "statement": "dvbcsa_encrypt and dvbcsa_decrypt with len < 8, and a batch entry with len < 8, do not change any byte of memory.", "quantifier": "all control words, all contents, all lengths below 8, every position in a batch", "why_tests_cant": "a universally quantified non-effect", "anchors": ["src/dvbcsa_algo.c:dvbcsa_encrypt", "src/dvbcsa_algo.c:dvbcsa_decrypt", "src/dvbcsa_bs_transpose_block.c:dvbcsa_bs_block_transpose_out_and_xor"]}
{"id": "C05", "title": "Single-packet calls stay inside their buffers", "statement": "dvbcsa_encrypt/decrypt read only the key context and data[0..len), write only data[0..len), never write the key context, and dvbcsa_key_set reads exactly the 8 control-word bytes and writes exactly the context; no access is out of bounds, whatever the memory contents.", "quantifier": "all lengths representable as unsigned int, all memory contents, all addresses", "why_tests_cant": "absence of out-of-bounds accesses for all lengths, including 32-bit wrap-around arithmetic", "anchors": ["src/dvbcsa_algo.c:dvbcsa_encrypt", "src/dvbcsa_algo.c:dvbcsa_decrypt", "src/dvbcsa_block.c:dvbcsa_key_set", "src/dvbcsa_key.c:dvbcsa_key_schedule_block"]}
{"id": "C06", "title": "Batch decryption equals single-packet decryption", "statement": "For every batch of at most dvbcsa_bs_batch_size() packets of at most 184 bytes in pairwise disjoint buffers, dvbcsa_bs_decrypt(key,pcks,184) leaves each payload exactly as dvbcsa_decrypt with the same control word would.", "quantifier": "all control words, batch sizes 0..batch_size, all per-packet lengths and contents, all supported builds", "why_tests_cant": "lanes interact in the bitsliced code; tests cover a handful of full batches of constant-pattern packets", "anchors": ["src/dvbcsa_bs_algo.c:dvbcsa_bs_decrypt", "src/dvbcsa_bs_block.c", "src/dvbcsa_bs_stream.c", "src/dvbcsa_bs_stream_kernel.inc", "src/dvbcsa_bs_transpose_block.c", "src/dvbcsa_bs_transpose_stream.c"]}
{"id": "C07", "title": "Batch encryption equals single-packet encryption", "statement": "As C06 for dvbcsa_bs_encrypt and dvbcsa_encrypt.", "quantifier": "all control words, batch sizes 0..batch_size, all per-packet lengths and contents, all supported builds", "why_tests_cant": "as C06", "anchors": ["src/dvbcsa_bs_algo.c:dvbcsa_bs_encrypt"]}
{"id": "C08", "title": "Batch and single-packet flavours interoperate", "statement": "dvbcsa_bs_decrypt undoes dvbcsa_bs_encrypt (and conversely) on every batch and every legal maxlen, restoring memory exactly; packets encrypted by one flavour are decrypted by the other.", "quantifier": "all control words, batches, lengths, maxlen multiples of 8 up to 184, builds", "why_tests_cant": "product of two unbounded domains", "anchors": ["src/dvbcsa_bs_algo.c:dvbcsa_bs_encrypt", "src/dvbcsa_bs_algo.c:dvbcsa_bs_decrypt"]}
{"id": "C09", "title": "maxlen truncates processing and nothing else", "statement": "With maxlen < len, the first maxlen bytes of a batch packet are processed exactly as a payload of maxlen bytes and the remaining bytes are unchanged; with maxlen >= len the result does not depend on maxlen.", "quantifier": "all maxlen multiples of 8 in 0..184, all lengths, contents, control words, builds", "why_tests_cant": "no test ever passes a maxlen other than 184", "anchors": ["README", "src/dvbcsa_bs_algo.c", "src/dvbcsa_bs_transpose_block.c", "src/dvbcsa_bs_stream.c"]}
{"id": "C10", "title": "Packets of a batch do not influence each other", "statement": "The result for one payload of a batch depends only on the control word, that payload's bytes and length and maxlen: not on its position, on the number of packets, or on the contents and lengths of the others; permuting a batch or splitting it over several calls gives the same memory.", "quantifier": "all batches, all permutations, all splits, all contents of the other packets", "why_tests_cant": "cross-lane leakage would show up only for particular data in other lanes", "anchors": ["src/dvbcsa_bs_transpose_stream.c", "src/dvbcsa_bs_transpose_block.c"]}
{"id": "C11", "title": "Results never depend on uninitialised memory", "statement": "The library reads uninitialised stack memory in partially filled batches (packet buffer tails, unused lanes, unused register slots); the final contents of caller memory are the same for all values of that garbage, and do not depend on what the key context held before key_set.", "quantifier": "all garbage contents of every local buffer, all batches", "why_tests_cant": "uninitialised reads happen to be stable in test runs", "anchors": ["src/dvbcsa_bs_algo.c:dvbcsa_pkt_buf_load", "src/dvbcsa_bs_block.c:dvbcsa_bs_block_decrypt_block", "src/dvbcsa_bs_stream.c:dvbcsa_bs_stream_cipher_batch"]}
{"id": "C12", "title": "All bitslice builds compute the same function", "statement": "uint32, uint64, MMX, SSE2, SSSE3, AVX2 and NEON builds, with or without the alternative S-box lookup (except AVX2 with it, see C33), with the i386 or the generic transpose, produce the same bytes for the same batch.", "quantifier": "all builds, control words, batches", "why_tests_cant": "a test run exercises the one build it was compiled for", "anchors": ["src/dvbcsa_bs_uint32.h", "src/dvbcsa_bs_uint64.h", "src/dvbcsa_bs_mmx.h", "src/dvbcsa_bs_sse.h", "src/dvbcsa_bs_avx2.h", "src/dvbcsa_bs_neon.h", "src/dvbcsa_bs_transpose_stream32.c"]}
{"id": "C13", "title": "Results do not depend on byte order", "statement": "Little-endian and big-endian builds of the single-packet and of the uint32/uint64 batch code produce the same bytes (key context, ciphertext and plaintext).", "quantifier": "both byte orders, all control words, payloads and batches", "why_tests_cant": "a test machine has one byte order", "anchors": ["src/dvbcsa_pv.h:dvbcsa_load_le64", "src/dvbcsa_pv.h:dvbcsa_store_le64", "src/dvbcsa_bs_transpose.h", "src/dvbcsa_bs_block.c:BLOCK_ALT_SBOX_LOAD"]}
{"id": "C14", "title": "Batch calls write only the payloads", "statement": "dvbcsa_bs_encrypt/decrypt read only the key context, the payloads and the descriptor array (for the array see C35), write only data[0..len) of each entry, never write the key context, and never touch caller memory out of those bounds (batch within its documented limits), whatever the memory contents.", "quantifier": "all batches within limits, all builds, all memory contents", "why_tests_cant": "absence of stray accesses for all sizes", "anchors": ["src/dvbcsa_bs_algo.c:dvbcsa_pkt_buf_load", "src/dvbcsa_bs_algo.c:dvbcsa_pkt_buf_store"]}
{"id": "C15", "title": "Re-keying fully replaces a key context", "statement": "After dvbcsa_key_set (dvbcsa_bs_key_set) the context bytes depend only on the control word: not on earlier contents, earlier control words or earlier use. The last control word set wins in any history.", "quantifier": "all histories of key_set calls on a context, all initial contents", "why_tests_cant": "quantifies over histories and prior memory contents", "anchors": ["src/dvbcsa_block.c:dvbcsa_key_set", "src/dvbcsa_bs_key.c:dvbcsa_bs_key_set"]}
{"id": "C16", "title": "Distinct control words give distinct key contexts", "statement": "All 64 control word bits are significant: two control words that differ in any bit produce different expanded keys, in the single-packet and in every batch build; in particular no key bit is dropped by the key schedule tables (there is no parity or checksum byte that is ignored).", "quantifier": "all pairs of control words, all builds", "why_tests_cant": "2^128 pairs", "anchors": ["src/dvbcsa_key.c:dvbcsa_key_schedule_block", "src/dvbcsa_block.c:dvbcsa_key_set"]}
{"id": "C17", "title": "Encryption is injective and length preserving", "statement": "For a fixed control word and length, two different payloads never encrypt (or decrypt) to the same bytes, and every byte string is reached; the same holds for the processed bytes of every payload of a legal batch, across builds.", "quantifier": "all control words, all lengths up to 2^32-1, all pairs of payloads, all legal batches of all good builds", "why_tests_cant": "pairs of payloads of every length", "anchors": ["src/dvbcsa_algo.c"]}
{"id": "C18", "title": "Residue and keystream depend only on the first ciphertext block", "statement": "The trailing len mod 8 bytes are XORed with a keystream that depends only on the control word and the first 8 ciphertext bytes; the first 8 ciphertext bytes of a payload are the first block of the chained block cipher, not touched by the stream stage (encryption below 2^31+16 bytes, see C24). Both for single calls and for every payload of a legal batch, across builds.", "quantifier": "all control words, lengths, payloads, all legal batches of all good builds", "why_tests_cant": "relational property over pairs of payloads", "anchors": ["src/dvbcsa_stream.c:dvbcsa_stream_xor", "src/dvbcsa_algo.c"]}
{"id": "C19", "title": "Decryption confines ciphertext errors", "statement": "If two ciphertexts of equal length agree on the first 8 bytes and differ only inside the 8-byte block j >= 1, their decryptions differ only inside blocks j-1 and j; if they differ only in the residue, only the residue of the plaintext differs.", "quantifier": "all control words, lengths, block positions, error patterns", "why_tests_cant": "pairs of payloads, all error patterns", "anchors": ["src/dvbcsa_algo.c:dvbcsa_decrypt"]}
{"id": "C20", "title": "Decrypting a truncated payload", "statement": "Decrypting only the first n' bytes of a payload yields the same bytes as decrypting all n of it, except for the last whole block of the part (and what trails it): that block differs from its true value by exactly the ciphertext block that follows it with the keystream taken off, and the trailing bytes of the part only lose the keystream. Cutting off trailing bytes only (n'/8 = n/8) changes nothing in the rest, and a part shorter than 8 bytes is left as it is. The same holds of a payload of a batch cut by maxlen, compared with a larger maxlen or with the single-packet call.", "quantifier": "all control words, payloads, lengths n' <= n, batches and builds", "why_tests_cant": "all truncation points of all payloads", "anchors": ["src/dvbcsa_algo.c:dvbcsa_decrypt"]}
{"id": "C21", "title": "An illegal maxlen stops the call before any effect", "statement": "When assertions are compiled in, dvbcsa_bs_encrypt/decrypt with maxlen not a multiple of 8 or above 184 aborts before reading or writing caller memory; every legal maxlen is accepted.", "quantifier": "all 2^32 values of maxlen, all batches", "why_tests_cant": "all values of maxlen; abort paths are not tested", "anchors": ["src/dvbcsa_bs_algo.c:dvbcsa_bs_decrypt", "src/dvbcsa_bs_algo.c:dvbcsa_bs_encrypt"]}
{"id": "C22", "title": "Batch capacity and the NULL terminator", "statement": "A batch of up to dvbcsa_bs_batch_size() packets followed by a NULL entry is processed completely, entries after the terminator are ignored, and an empty batch has no effect; one packet more, or a missing terminator, is undefined behaviour (out-of-bounds access), not a truncated run.", "quantifier": "all batch lengths, all builds", "why_tests_cant": "overflow of an internal buffer may not crash a test", "anchors": ["src/dvbcsa_bs_algo.c:dvbcsa_pkt_buf_load", "src/dvbcsa_bs_algo.c:dvbcsa_bs_batch_size"]}
{"id": "C23", "title": "Packets over 184 bytes corrupt their neighbour", "statement": "The 184-byte limit on a packet is not checked: a batch in which an entry is longer than 184 bytes silently exchanges bytes with the next packet's slot (or overflows the buffer if it is the last slot), so the README's 'packets greater than this limit will only be partially processed' holds only up to 184 bytes. For every batch of entries of any lengths the result is either exactly determined by the payloads, the control word and maxlen (never by what the internal buffer held before), or, if an entry ends behind the last slot, undefined.", "quantifier": "every batch with an over-long packet (witness for the negative part)", "why_tests_cant": "the test-suite never exceeds 184", "anchors": ["src/dvbcsa_bs_algo.c:dvbcsa_pkt_buf_load", "README"]}
{"id": "C24", "title": "Encryption of buffers of 2^31+16 bytes or more", "statement": "dvbcsa_encrypt computes its loop index in a signed int: for len >= 2^31+16 every block but the last is left without block encryption (the first 8 bytes of the output are the plaintext), and dvbcsa_decrypt does not restore the payload, unless by coincidence each of its whole blocks after the first has the one value that its predecessor and the control word determine: for every first block and every trailing bytes exactly one payload comes back. Below that bound the whole payload is processed.", "quantifier": "all lengths from 2^31+16 to 2^32-1, all payloads and control words", "why_tests_cant": "needs a 2 GiB buffer", "anchors": ["src/dvbcsa_algo.c:dvbcsa_encrypt"]}
{"id": "C25", "title": "Key contexts are independent over any history", "statement": "In every history of alloc, key_set, encrypt, decrypt and free calls over any number of contexts (single-packet and batch), every encryption or decryption behaves according to the last control word set on the context it names; operations on one context never affect another (single-packet encryptions under 2^31+16 bytes, see C24).", "quantifier": "all finite histories of API calls, all allocation addresses", "why_tests_cant": "unbounded histories", "anchors": ["src/dvbcsa_algo.c:dvbcsa_key_alloc", "src/dvbcsa_algo.c:dvbcsa_key_free", "src/dvbcsa_bs_algo.c:dvbcsa_bs_key_alloc"]}
{"id": "C26", "title": "Concurrent calls do not interfere", "statement": "Calls running concurrently, sharing read-only key contexts and descriptor arrays (which the batch calls read while the others run) and writing disjoint payloads, produce for every interleaving of their individual memory accesses the same memory as running them one after another in any order: there is no hidden shared mutable state. This does not depend on the memory model: it holds as well if a write becomes visible to the other threads late, in any order or not at all until they wait for the thread.", "quantifier": "all schedules, all numbers of threads, all mixes of API calls", "why_tests_cant": "all interleavings", "anchors": ["src/dvbcsa_algo.c", "src/dvbcsa_bs_algo.c"]}
{"id": "C27", "title": "Batch calls read all payloads before writing any", "statement": "dvbcsa_bs_encrypt/decrypt perform every read of the context and of the payloads before the first write (only the descriptor array is read again afterwards, see C35); hence a buffer listed twice in a batch is processed once, not twice.", "quantifier": "all batches, including overlapping buffers", "why_tests_cant": "aliasing patterns", "anchors": ["src/dvbcsa_bs_algo.c:dvbcsa_pkt_buf_load", "src/dvbcsa_bs_algo.c:dvbcsa_pkt_buf_store"]}
{"id": "C28", "title": "A batch call interrupted at any point leaves old or final bytes", "statement": "If a batch call on disjoint buffers is stopped after any number of memory accesses, every payload byte is either its original value or its final value: no intermediate cipher state is ever visible in caller memory, unlike the single-packet calls, which work in place.", "quantifier": "all crash points, all batches", "why_tests_cant": "all interruption points", "anchors": ["src/dvbcsa_bs_algo.c"]}
{"id": "C29", "title": "Signed overflow in the uint32 key setup", "statement": "dvbcsa_bs_key_set in the uint32 build multiplies a promoted int by 0x01010101: for control words whose expanded key contains a byte >= 0x80 this is undefined in ISO C; with wrapping signed arithmetic the context is correct for every control word. The other builds use unsigned arithmetic and are defined for all control words.", "quantifier": "all control words, all builds", "why_tests_cant": "undefined behaviour is invisible when the compiler happens to wrap", "anchors": ["src/dvbcsa_bs_key.c:dvbcsa_bs_key_set"]}
{"id": "C30", "title": "AVX2 gather over-read is harmless to the result", "statement": "The AVX2 S-box lookup gathers 32 bits per 16-bit table entry and so reads two bytes past the table for input 0xff; the result never depends on these bytes.", "quantifier": "all S-box inputs, all values of the bytes after the table", "why_tests_cant": "depends on linker layout", "anchors": ["src/dvbcsa_bs_avx2.h:avx2_block_sbox_permute"]}
{"id": "C31", "title": "Calls are deterministic and stateless", "statement": "Encrypt and decrypt leave the key context unchanged and their effect on a buffer is a function of control word, length and buffer contents only, so the same call on the same bytes gives the same result at any time, at any address and after any other calls.", "quantifier": "all pairs of memories, addresses and histories", "why_tests_cant": "relational property", "anchors": ["src/dvbcsa_algo.c", "src/dvbcsa_bs_algo.c"]}
{"id": "C32", "title": "dvbcsa_bs_batch_size is the real capacity", "statement": "dvbcsa_bs_batch_size() returns 32, 64, 128 or 256 according to the build, always a positive multiple of 32, and equals both the number of bit lanes and the number of packet slots.", "quantifier": "all builds", "why_tests_cant": "one build per test run", "anchors": ["src/dvbcsa_bs_algo.c:dvbcsa_bs_batch_size"]}
{"id": "C33", "title": "AVX2 with the alternative S-box lookup does not compute DVB-CSA", "statement": "Configured with --enable-avx2 --enable-alt-sbox the library builds, but its batch functions are wrong: the generic lookup macro overrides the AVX2 one while the AVX2 loads still expect the AVX2 layout, so a lane receives S-box values of other lanes. There are a control word and a batch for which dvbcsa_bs_encrypt does not produce what dvbcsa_encrypt produces, whatever the uninitialised memory holds, and a batch that dvbcsa_bs_decrypt does not decrypt as the standard says. The fault is symmetric: on every full batch whose payloads have equally many blocks, dvbcsa_bs_decrypt still undoes dvbcsa_bs_encrypt, for every control word.", "quantifier": "existence of a legal batch; all garbage contents; for the round trip all control words, contents and layouts", "why_tests_cant": "nobody runs the test-suite on this combination of options, and a round trip through the batch calls does not show it", "anchors": ["src/dvbcsa_bs_block.c:BLOCK_SBOX_PERMUTE", "src/dvbcsa_bs_avx2.h:BS_LOAD_DEINTERLEAVE_8"]}
{"id": "C34", "title": "Batch contexts are aligned for the word type", "statement": "Every non-null pointer returned by dvbcsa_bs_key_alloc is aligned to the size of a bitslice word, so every word of the context can be loaded with aligned vector instructions; the alignment passed to posix_memalign is always one it accepts; the only exception is the malloc fallback with assertions compiled out.", "quantifier": "all builds, all allocators, all addresses they may return", "why_tests_cant": "allocators usually over-align, so tests pass by luck", "anchors": ["src/dvbcsa_bs_algo.c:dvbcsa_bs_key_alloc", "configure.ac"]}
{"id": "C35", "title": "The descriptor array may lie anywhere but on the context or a payload", "statement": "With the struct dvbcsa_bs_batch_s array in caller memory (ILP32 or LP64 layout, either byte order) at any address not overlapping the context or a payload, the batch calls do exactly what its entries say, read of it only the entries up to the terminating null pointer, never change it, and after the first write read nothing else than the array; stopped at any access they leave old or final bytes. The array is read again while results are copied out, so an array that overlaps a payload makes dvbcsa_bs_decrypt write to addresses spelled by decrypted data.", "quantifier": "all array addresses, both ABIs, all legal batches, all builds, all contents of context and payloads, all interruption points", "why_tests_cant": "aliasing between the array and the buffers is never exercised by tests", "anchors": ["src/dvbcsa/dvbcsa.h:dvbcsa_bs_batch_s", "src/dvbcsa_bs_algo.c:dvbcsa_pkt_buf_load", "src/dvbcsa_bs_algo.c:dvbcsa_pkt_buf_store"]}
{"id": "C37", "title": "No local array or constant table is ever overrun", "statement": "No single-packet call, whatever its arguments, and no legal batch call, whatever the context, the payloads and the uninitialised stack contain, accesses a local array, an array inside a local structure or a lookup table outside its declared size or moves a used pointer before its start; the only exception is the AVX2 build, whose S-box lookup reads the two bytes behind its 16-bit table, and does so in every legal encryption where the last byte of the first block processed is the complement of the first round key.", "quantifier": "all single-packet arguments; all legal batches, all builds, all memory contents, all uninitialised stack contents", "why_tests_cant": "an overrun by a few bytes of stack or of .rodata is invisible to a test unless it happens to change a result", "anchors": ["src/dvbcsa_bs_stream_kernel.inc", "src/dvbcsa_bs_block.c", "src/dvbcsa_bs_transpose_stream.c", "src/dvbcsa_bs_transpose_block.c", "src/dvbcsa_stream.c", "src/dvbcsa_block.c", "src/dvbcsa_key.c", "src/dvbcsa_bs_avx2.h:avx2_block_sbox_permute"]}
{"id": "C36", "title": "The access pattern does not depend on secret data", "statement": "Which bytes of caller memory a call reads and writes, in which order and how often, depends only on its pointer and length arguments: not on the control word, the context, the payload bytes or uninitialised memory. A single-packet call makes an exactly known number of byte accesses, linear in len; a batch call reads every payload byte once, then makes a sequence of context reads that depends only on maxlen, then writes every payload byte once. (Lookups in the library's constant tables do depend on the data, see C51.)", "quantifier": "all pairs of memory contents, all arguments, all builds, all uninitialised values", "why_tests_cant": "a relation between all pairs of executions; timing tests sample a few", "anchors": ["src/dvbcsa_algo.c", "src/dvbcsa_stream.c:dvbcsa_stream_xor", "src/dvbcsa_bs_algo.c", "src/dvbcsa_bs_key.c:dvbcsa_bs_key_set"]}
{"id": "C38", "title": "maxlen not a multiple of 8 when assertions are compiled out", "statement": "With NDEBUG the documented restriction on maxlen is not checked. dvbcsa_bs_decrypt with any maxlen up to 184 then behaves as with maxlen rounded up to a multiple of 8; dvbcsa_bs_encrypt with maxlen below 8 changes nothing; dvbcsa_bs_encrypt with a larger maxlen that is not a multiple of 8 overruns its packet buffer (up to 184 at the front) whenever the first payload has at least 8 bytes, in every build and for all data.", "quantifier": "all maxlen, all batches, all builds without assertions, all memory contents", "why_tests_cant": "the assertion hides it in the test build", "anchors": ["src/dvbcsa_bs_algo.c:dvbcsa_bs_decrypt", "src/dvbcsa_bs_block.c:dvbcsa_bs_block_encrypt_batch", "src/dvbcsa_bs_transpose_block.c:dvbcsa_bs_block_transpose_out_and_xor"]}
{"id": "C39", "title": "Decryption copies ciphertext differences", "statement": "There is no integrity check: if two ciphertexts of one length under one control word share their first eight bytes, then wherever a ciphertext block is unchanged, the XOR of the two plaintext blocks equals the XOR of the two following ciphertext blocks; a change in the trailing bytes shows unchanged in place; and a changed whole block never leaves the plaintext block at its place unchanged unless the block after it was changed too. The same holds for the processed part of each payload of a batch.", "quantifier": "all pairs of ciphertexts with the same first block, all lengths, all control words, all batches and builds", "why_tests_cant": "relation between all pairs of inputs", "anchors": ["src/dvbcsa_algo.c", "src/dvbcsa_bs_algo.c:dvbcsa_bs_decrypt"]}
{"id": "C40", "title": "A changed plaintext block always changes the first ciphertext block", "statement": "Two payloads of the same length that differ in exactly one whole block (and possibly in the trailing bytes) are encrypted under one control word to ciphertexts with different first eight bytes, so the keystream, which these bytes start, is never started from the same value for both; for single calls (under 2^31+16 bytes, see C24) and batch calls.", "quantifier": "all pairs of payloads differing in one block, all positions, all control words, all batches and builds", "why_tests_cant": "injectivity over all inputs", "anchors": ["src/dvbcsa_algo.c", "src/dvbcsa_bs_algo.c:dvbcsa_bs_encrypt"]}
{"id": "C41", "title": "Where the control word may lie", "statement": "dvbcsa_key_set and dvbcsa_bs_key_set read the control word a second time after they have begun to write the context. The single-packet setup is right for every control word exactly if the control word lies outside the first 16 bytes of the context or exactly at its start (so a context can be set up from its own copy of the control word); the batch setup is right for every control word exactly if the control word does not overlap the last 64 words of the context.", "quantifier": "all relative positions of control word and context, all control words, all builds", "why_tests_cant": "aliasing positions are never tested", "anchors": ["src/dvbcsa_block.c:dvbcsa_key_set", "src/dvbcsa_bs_key.c:dvbcsa_bs_key_set"]}
{"id": "C42", "title": "Builds with a stage left out", "statement": "Compiled with DVBCSA_DISABLE_STREAM and/or DVBCSA_DISABLE_BLOCK, the single and batch calls compute exactly DVB-CSA without that stage: encryption and decryption are still inverse to each other, a batch call still equals one single-packet call per payload (cut at maxlen), only the payloads change, and with both stages compiled in the library is the normal one. With the block stage left out the AVX2 build with the alternative S-box is right too, and dvbcsa_encrypt has no length limit (with it, the limit of C24).", "quantifier": "all four combinations of the two macros, all builds, control words, payloads, lengths, batches, maxlen values", "why_tests_cant": "no test compiles these configurations", "anchors": ["src/dvbcsa_algo.c:dvbcsa_encrypt", "src/dvbcsa_algo.c:dvbcsa_decrypt", "src/dvbcsa_bs_algo.c:dvbcsa_bs_encrypt", "src/dvbcsa_bs_algo.c:dvbcsa_bs_decrypt"]}
{"id": "C43", "title": "The bundled self-test gives no false alarm, and its success means something", "statement": "In every good build with a defined key setup the bundled batch self-test program exits with 0, whatever rand() returns, whatever the control word is and wherever its buffers lie; and with any library whatsoever, success of one test implies that batch decryption undid single-packet encryption and batch encryption undid single-packet decryption on all generated payloads. The two programs with test vectors exit with 0 on either byte order, and with any library whatsoever exit code 0 means that the buffer held the expected 184 bytes after each call. The bundled test of the word operations prints only \"Ok\" in every supported build.", "quantifier": "all random sequences, control words, buffer layouts, builds; for the converse all libraries", "why_tests_cant": "the test's own correctness ranges over all outcomes of rand() and all (also faulty) libraries", "anchors": ["test/testbitslice.c:main,run_test,generate_packets", "test/testenc.c:main", "test/testdec.c:main", "test/testbsops.c:main", "src/dvbcsa_bs_algo.c"]}
{"id": "C44", "title": "The debug dump", "statement": "worddump changes nothing; with word size ws it reads only the len bytes it was given exactly if the least power of two not below ws divides len; with a power of two as word size it prints every word with its bytes reversed, 32 bytes on a line; its 32-bit counter makes it endless from 2^32 bytes on.", "quantifier": "all addresses, lengths, word sizes and memory contents", "why_tests_cant": "bounds and contents for every length and word size", "anchors": ["src/dvbcsa_bs_algo.c:worddump"]}
{"id": "C45", "title": "maxlen above 184 with assertions compiled out", "statement": "With assertions compiled out, both batch calls with n payloads leave the library's internal packet buffer, before they have written anything, as soon as maxlen rounded up to a multiple of 8 exceeds 184 * (batch size - n + 1); in particular for every maxlen above 184 in a full batch. Otherwise they return, if the payloads fit the buffer and (encryption) maxlen is a multiple of 8; a single payload of up to 184 * batch size bytes is then processed as DVB-CSA prescribes, however long. With assertions every maxlen above 184 stops at the assertion.", "quantifier": "all builds, contexts, payload addresses and lengths, all maxlen up to 2^32-1, all values of uninitialised locals", "why_tests_cant": "undefined behaviour cannot be observed by a test", "anchors": ["src/dvbcsa_bs_algo.c:dvbcsa_bs_decrypt,dvbcsa_bs_encrypt", "src/dvbcsa_bs_stream.c:dvbcsa_bs_stream_cipher_batch", "src/dvbcsa_bs_transpose_stream.c"]}
{"id": "C46", "title": "Contexts are released the way they were obtained", "statement": "In every allocator configuration, a program that releases only contexts it holds, each with the function for its kind, never passes a block to the wrong release function, never releases one twice, and leaves live exactly the contexts it still holds; after releasing everything the heap is what it was. Releasing a batch context with the single-packet function is undefined exactly in the _mm_malloc configuration.", "quantifier": "all allocator configurations and builds, all sequences of allocations (including failing ones) and releases, all initial heaps", "why_tests_cant": "the matching of release to allocation depends on configuration macros and on the whole history; a wrong release may go unnoticed in a test", "anchors": ["src/dvbcsa_bs_algo.c:dvbcsa_bs_key_alloc,dvbcsa_bs_key_free", "src/dvbcsa_algo.c:dvbcsa_key_alloc,dvbcsa_key_free"]}
{"id": "C47", "title": "Changing the control word during a call is not atomic", "statement": "If one thread sets a new control word in a context while another is in an encryption or decryption call with it, there is a schedule under which both calls return and the payload has been processed with one stage under the old and the other stage under the new control word - for every context, every new control word and every legal payload (dvbcsa_encrypt: under 2^31+16 bytes, see C24) or batch. The result is in general right for neither control word, so applications must serialise key changes with calls.", "quantifier": "all builds, contexts, control words, payloads and legal batches; existence of a schedule", "why_tests_cant": "whether a given schedule happens in a test is luck; the claim is about the set of schedules", "anchors": ["src/dvbcsa_algo.c:dvbcsa_encrypt,dvbcsa_decrypt", "src/dvbcsa_bs_algo.c:dvbcsa_bs_encrypt,dvbcsa_bs_decrypt", "src/dvbcsa_block.c:dvbcsa_key_set", "src/dvbcsa_bs_key.c:dvbcsa_bs_key_set"]}
{"id": "C48", "title": "The bundled benchmarks use the library legally and end", "statement": "Every bundled benchmark program, in every good build, makes only defined calls (no assertion fires, no undefined behaviour), touches nothing but its own buffers and contexts, and returns after a fixed number of calls whatever rand() returns and wherever its buffers lie: the single-packet ones after 65280 calls, with 184 zero bytes encrypted or decrypted that often in the buffer; the batch one after 520192 packets, with every payload as it was generated, because its decryptions are undone by as many encryptions; the key-setup ones with a context usable for the last control word.", "quantifier": "all builds, byte orders, buffer layouts, random sequences and initial memories", "why_tests_cant": "a benchmark that corrupted memory for some random sequence or some layout would still print a plausible speed", "anchors": ["test/benchdec.c:main", "test/benchenc.c:main", "test/benchbitslice.c:main", "test/benchks.c:main", "test/benchbitsliceks.c:main"]}
{"id": "C49", "title": "Only contexts and descriptor arrays need alignment", "statement": "Payloads and control words may be at any address: with a batch context at a multiple of the word size and the descriptor array aligned for a pointer, no call of the batch API makes a misaligned typed access, on any target whose types are aligned to at most their size. Contexts from dvbcsa_bs_key_alloc meet this whenever the allocator keeps its promise (plain malloc: with assertions on), so allocating, setting a control word and processing a batch give DVB-CSA. On a misaligned context or array every call is undefined behaviour before anything is written; the malloc fallback without assertions can hand out such a context.", "quantifier": "all builds, ABIs, alignment requirements, addresses of payloads, control words, contexts and arrays, memory contents", "why_tests_cant": "misaligned accesses usually work on the test machine, and test buffers happen to be aligned", "anchors": ["src/dvbcsa_bs_algo.c:dvbcsa_bs_key_alloc,dvbcsa_bs_encrypt,dvbcsa_bs_decrypt,dvbcsa_pkt_buf_load,dvbcsa_pkt_buf_store", "src/dvbcsa_bs_key.c:dvbcsa_bs_key_set", "src/dvbcsa_bs_stream.c:dvbcsa_bs_stream_cipher_batch", "src/dvbcsa_bs_block.c:dvbcsa_bs_block_encrypt_batch,dvbcsa_bs_block_decrypt_batch", "src/dvbcsa_pv.h:dvbcsa_load_le64"]}
{"id": "C50", "title": "What configure builds works, with known exceptions", "statement": "For all --enable options (any values), targets and user flags: config.h defines exactly one word-type macro, the first requested one in the order mmx, sse2, ssse3, avx2, altivec, neon, uint32, uint64 and otherwise the integer of the size of long; the matching word header, stream transposition file and allocation function are used; and the resulting library sets up every control word and computes DVB-CSA on every legal batch. The exceptions: AltiVec (does not compile), vector words on big-endian targets (not covered), AVX2 with --enable-alt-sbox (C33), 32-bit words without -fwrapv in CFLAGS (C29) - which is what configure without options gives wherever long is not 8 bytes - and an environment variable transpose_32=yes, which makes configure compile the wrong transposition: the library it gives with words of 64 bits or more decrypts some payload wrongly and encrypts some payload wrongly, whatever uninitialised memory holds.", "quantifier": "all option values, targets, environments and user flags; all control words, contexts and legal batches of the resulting build", "why_tests_cant": "the option space times the target space is never tested, a test run checks the one library it was built with", "anchors": ["configure.ac", "src/Makefile.am", "src/dvbcsa_bs.h", "src/dvbcsa_bs_algo.c:dvbcsa_bs_key_alloc"]}
{"id": "C51", "title": "The table look-ups reveal the control word", "statement": "The addresses of the look-ups in the library's constant tables are secret-dependent, in full: the sequence of addresses that dvbcsa_key_set or dvbcsa_bs_key_set accesses determines the control word, and so does that of a single dvbcsa_decrypt call on at least 8 bytes (together with the first 8 payload bytes) or dvbcsa_encrypt call (with the last whole block of the plaintext). The same holds for one dvbcsa_bs_decrypt or dvbcsa_bs_encrypt call of a good build with maxlen at least 8, given the first (resp. last whole, within maxlen) block of any one payload of at least 8 bytes in the batch. For key setup the sequence of cache lines is enough: with lines of up to 256 bytes and the permutation table at the start of one, it determines the control word; with lines of 512 bytes exactly nine bits of the control word stay hidden. A caller who shares a cache with an adversary must not rely on these calls being constant-time. Keeping the tables in memory does not change any effect of the calls.", "quantifier": "all pairs of memory contents and control words, all placements of the tables, both byte orders, all lengths from 8 on, all legal batches, all builds, all values of uninitialised locals", "why_tests_cant": "a relation between all pairs of executions: no two control words may share a trace", "anchors": ["src/dvbcsa_key.c:dvbcsa_key_permute_block,dvbcsa_key_schedule_block", "src/dvbcsa_block.c:dvbcsa_block_encrypt,dvbcsa_block_decrypt,dvbcsa_key_set", "src/dvbcsa_stream.c:dvbcsa_stream_xor", "src/dvbcsa_bs_key.c:dvbcsa_bs_key_set", "src/dvbcsa_bs_block.c:dvbcsa_bs_block_decrypt_batch,dvbcsa_bs_block_encrypt_batch"]}
{"id": "C52", "title": "Nothing but the place within a table row depends on secrets", "statement": "The complement of C51. With the constant tables counted as memory, any two runs of one library call with the same pointer and length arguments make equally many accesses, and corresponding accesses are the same or two reads in the same table (key permutation and stream S-boxes: in the same row of the table), whatever the control words, contexts, payloads and uninitialised locals are. So with 64-byte cache lines and suitably placed tables the stream cipher's S-box look-ups reveal nothing, and an application that prefetches whole tables hides the rest.", "quantifier": "all pairs of memory contents, all arguments and legal batches, all placements of the tables, all builds (batch key setup: where defined, C29), all uninitialised values", "why_tests_cant": "a relation between all pairs of executions", "anchors": ["src/dvbcsa_key.c:dvbcsa_key_permute_block", "src/dvbcsa_block.c:dvbcsa_block_encrypt,dvbcsa_block_decrypt", "src/dvbcsa_stream.c:csa_stream_sboxes,csa_stream_cfed,dvbcsa_stream_xor", "src/dvbcsa_bs_block.c:BLOCK_SBOX,BLOCK_SBOX_PERMUTE", "src/dvbcsa_bs_avx2.h:avx2_block_sbox_permute"]}
{"id": "C53", "title": "Contexts of any content still give a reversible cipher", "statement": "The packet calls need no properly set context to be defined and reversible. Whatever bytes the context holds (never keyed, damaged, half overwritten by a key change), dvbcsa_encrypt and dvbcsa_decrypt return and apply DVB-CSA with the 56 round keys and 8 stream key bytes found in it, and each undoes the other; for the batch calls the same holds with key material of its own for every slot of the batch, so each batch call undoes the other on the same array. A context made by key setup holds the material of its control word. Only the bytes of a context matter, so it may be copied or moved with memcpy.", "quantifier": "all memory contents, hence all contexts; all payloads (encryption below 2^31+16 bytes, C24), all legal batches, maxlen values, supported builds and uninitialised values", "why_tests_cant": "all 2^576 and more context contents", "anchors": ["src/dvbcsa_algo.c:dvbcsa_encrypt,dvbcsa_decrypt", "src/dvbcsa_bs_algo.c:dvbcsa_bs_encrypt,dvbcsa_bs_decrypt", "src/dvbcsa_block.c:dvbcsa_block_encrypt,dvbcsa_block_decrypt", "src/dvbcsa_pv.h:struct dvbcsa_key_s", "src/dvbcsa_bs.h:struct dvbcsa_bs_key_s"]}
{"id": "C54", "title": "Calls may be interrupted by handlers that make calls, or abandoned", "statement": "Calls interrupted any number of times, at any points, by signal handlers that make calls of their own, themselves interrupted to any depth, leave the same memory as making the calls one after another, in either order, provided no handler works on memory (context or payload) that a call it interrupts uses or the other way round; contexts may be shared read-only and the same handler may run again. Calls that are never resumed (longjmp, killed thread) leave nothing behind but the bytes they were working on: later calls not using those bytes behave as if the abandoned calls had never been made. An abandoned key setup is repaired by setting the context again (any control word), any other call by restoring its payloads and repeating it.", "quantifier": "all series of legal calls, numbers, points and nesting depths of interruptions, abandonment points, builds, control words, payloads and memories", "why_tests_cant": "where a signal arrives is not under a test's control; the number of interruption points and nestings is unbounded", "anchors": ["src/dvbcsa/dvbcsa.h", "src/dvbcsa_block.c:dvbcsa_key_set", "src/dvbcsa_bs_key.c:dvbcsa_bs_key_set", "src/dvbcsa_algo.c:dvbcsa_encrypt", "src/dvbcsa_algo.c:dvbcsa_decrypt", "src/dvbcsa_bs_algo.c:dvbcsa_bs_encrypt", "src/dvbcsa_bs_algo.c:dvbcsa_bs_decrypt"]}
{"id": "C55", "title": "Threads may hand contexts and payloads to each other", "statement": "Any number of threads allocate, key, use and free contexts, write their own memory and make single-packet and batch calls, in any interleaving of single memory accesses, and hand contexts and payloads to each other, provided nobody touches what a call in progress is working on, or changes or frees what it uses. Then at every moment all of the caller's memory that no call in progress is working on is what the same actions would have left one after another, in the order in which they began, on an ideal machine in which a context just holds a control word; no two accesses race, no thread gets stuck and every call returns after finitely many of its own accesses.", "quantifier": "all numbers of threads, all histories and interleavings obeying the rule, all allocator decisions, builds, control words, payloads and memories", "why_tests_cant": "the number of interleavings of single accesses is astronomical and a test cannot choose them; ownership changes during the run", "anchors": ["src/dvbcsa/dvbcsa.h", "src/dvbcsa_algo.c", "src/dvbcsa_bs_algo.c", "src/dvbcsa_key.c", "src/dvbcsa_bs_key.c"]}
{"id": "C56", "title": "Every call returns", "statement": "No call goes on for ever: with loop counters that wrap at 32 bits as in the code, dvbcsa_encrypt and dvbcsa_decrypt return for every length up to 2^32 - 1 after at most as many passes of each loop (and 8), from any memory, and the batch calls do within the documented limits after at most 440 passes of each loop. Whatever the descriptors are, no batch call loops for ever if assertions are compiled in or maxlen is at most 2^32 - 8. With assertions compiled out that bound is sharp: a call with no payloads and a larger maxlen never returns, because the counter wraps before it gets there.", "quantifier": "all lengths, key contents, memories, builds, descriptor arrays and values of maxlen", "why_tests_cant": "tests try a few lengths, and 2^32 of them with packets of gigabytes cannot be run; a missing end of a loop shows only at the value at which a counter wraps", "anchors": ["src/dvbcsa_algo.c: dvbcsa_decrypt, dvbcsa_encrypt", "src/dvbcsa_stream.c: dvbcsa_stream_xor", "src/dvbcsa_bs_algo.c: dvbcsa_bs_decrypt, dvbcsa_bs_encrypt", "src/dvbcsa_bs_stream.c: dvbcsa_bs_stream_cipher_batch", "src/dvbcsa_bs_block.c: dvbcsa_bs_block_decrypt_batch, dvbcsa_bs_block_encrypt_batch", "src/dvbcsa_bs_transpose_block.c", "src/dvbcsa_bs_transpose_stream.c", "src/dvbcsa_bs_transpose_stream32.c"]}
{"id": "C57", "title": "A full batch moves a pointer beyond the packet buffer", "statement": "Counting every move of a pointer beyond one past the end of the library's internal packet buffer as undefined behaviour (C11 6.5.6p8), whether or not the pointer is used, a legal batch call is defined exactly if it has fewer payloads than dvbcsa_bs_batch_size() or maxlen is at most 8, and then does what it is meant to do; a full batch with a larger maxlen is undefined before anything is written. An application that wants strictly conforming calls leaves one slot free.", "quantifier": "all builds, legal batches, contexts and memories", "why_tests_cant": "the pointer is not used, so no compiler or sanitizer of today reacts to it; a test of a full batch passes", "anchors": ["src/dvbcsa_bs_transpose_block.c: dvbcsa_bs_block_transpose_in, dvbcsa_bs_block_transpose_out_and_xor", "src/dvbcsa_bs_transpose_stream.c: dvbcsa_bs_stream_transpose_out", "src/dvbcsa_bs_transpose_stream32.c: dvbcsa_bs_stream_transpose_out", "src/dvbcsa_bs.h: struct dvbcsa_bs_pkt_buf"]}
{"id": "C58", "title": "Handing memory over by synchronising is enough on any memory model", "statement": "Threads that set keys, fill in payloads, control words and descriptor arrays and make single-packet and batch calls may hand contexts, arrays and payloads to each other, provided that before a thread begins something it has synchronised (mutex, queue, thread start or join; directly or through others) with the end of every earlier action of another thread that conflicts with it. Then there is no data race, every action can be brought to its end, and a thread that has synchronised with all who worked on an address can only read there what the same actions leave when done one after another in the order in which they began - even on a machine in which a read may return any write not known to be overwritten. In particular: a key set by one thread and a payload encrypted by another come back as DVB-CSA says.", "quantifier": "all numbers of threads, all histories obeying the rule, all interleavings of single accesses, all choices of the values that unsynchronised memory may show, all builds, control words, payloads and memories", "why_tests_cant": "no test can enumerate interleavings, and the machine under test shows only some of the reorderings others do", "anchors": ["src/dvbcsa_algo.c:dvbcsa_encrypt,dvbcsa_decrypt", "src/dvbcsa_bs_algo.c:dvbcsa_bs_encrypt,dvbcsa_bs_decrypt", "src/dvbcsa_block.c:dvbcsa_key_set", "src/dvbcsa_bs_key.c:dvbcsa_bs_key_set"]}
{"id": "C59", "title": "How much work a call does", "statement": "A batch call within the documented limits performs exactly 32 rounds of the stream cipher and 56 rounds of the block cipher for every 8 bytes of maxlen (and 32 rounds of the stream cipher for maxlen 0), however many packets the array has and whatever their lengths, data, keys and addresses are and in every build, so that a batch with fewer entries costs the cipher rounds of a full one and maxlen alone controls their number; these are the rounds a single-packet call performs for one payload of maxlen bytes. The loops over packets handle each packet 2 + max(1,maxlen/8) + 2*(maxlen/8) times and every payload byte is copied twice. A single-packet call does nothing below 8 bytes and otherwise 4*len stream cipher rounds and 56*(len/8) block cipher rounds.", "quantifier": "all batches within limits, all builds, keys, memories and buffer contents; all single-packet lengths (encryption below 2^31+16)", "why_tests_cant": "timing measurements are noisy samples and cannot exclude data-dependent work on other inputs", "anchors": ["README:95-105", "src/dvbcsa_bs_algo.c:dvbcsa_bs_encrypt", "src/dvbcsa_bs_stream.c:dvbcsa_bs_stream_cipher_batch", "src/dvbcsa_bs_block.c:dvbcsa_bs_block_encrypt_batch", "src/dvbcsa_algo.c:dvbcsa_decrypt"]}
{"id": "C60", "title": "A batch call fetches every payload byte once", "statement": "While other threads or devices write to the payloads of a batch in progress, in any order and at any time, a batch call within the documented limits reads every byte of every payload exactly once, then writes to each payload DVB-CSA of what it has read (its first maxlen bytes, the rest unchanged), provided the context is left alone: it never processes a mixture of an old and a new value of the same byte, never goes wrong, and can always be run to its end. A payload nobody else writes is processed as if the call were alone, whatever happens to the other payloads of the batch. The array of descriptors, in contrast, is fetched again when the results are written, and the single-packet calls fetch bytes several times.", "quantifier": "every build with a correct word header, control word, set of payloads and maxlen within the limits, every value each read may return; every number of other threads, programs they run and schedule", "why_tests_cant": "A race would have to be provoked at each of thousands of accesses for every pattern of concurrent writes", "anchors": ["src/dvbcsa_bs_algo.c:dvbcsa_pkt_buf_load", "src/dvbcsa_bs_algo.c:dvbcsa_pkt_buf_store", "src/dvbcsa_bs_algo.c:dvbcsa_bs_decrypt", "src/dvbcsa_bs_algo.c:dvbcsa_bs_encrypt", "src/dvbcsa_algo.c:dvbcsa_decrypt", "src/dvbcsa_stream.c:dvbcsa_stream_xor"]}
{"id": "C61", "title": "No undefined behaviour of any of the modelled kinds, together", "statement": "At the level of detail of the C text, with every check present at the same time - each access to a local array, a member array or a constant table within its declared size, no pointer moved before its array (nor, under the strict reading of C, more than one past its end), each access through a pointer to a wider type aligned, each int counter within range, each loop with its own condition and 32-bit counter, the descriptor array read from memory - a call within the documented limits on an aligned context and array has no undefined behaviour, returns, and computes DVB-CSA: dvbcsa_bs_key_alloc followed by dvbcsa_bs_key_set and dvbcsa_bs_encrypt or dvbcsa_bs_decrypt, and dvbcsa_key_set followed by dvbcsa_encrypt or dvbcsa_decrypt for every length. Conversely, a batch call with legal arguments whose context or descriptor array is not aligned, or (under the strict reading) whose batch is full with more than 8 bytes to process, is undefined before anything is written.", "quantifier": "all builds with a correct word size, target alignments, pointer sizes, readings of the pointer rule, contents behind the table, uninitialised values, addresses, control words, payloads, batch sizes and lengths", "why_tests_cant": "A sanitizer run covers the paths and data of the run, one target and one kind of check; tests cannot show that no input trips any of them, nor that the checks do not interact.", "anchors": ["src/dvbcsa_bs_algo.c: dvbcsa_bs_encrypt, dvbcsa_bs_decrypt, dvbcsa_pkt_buf_load, dvbcsa_pkt_buf_store", "src/dvbcsa_bs_key.c: dvbcsa_bs_key_set", "src/dvbcsa_bs_block.c: dvbcsa_bs_block_decrypt_batch, dvbcsa_bs_block_encrypt_batch", "src/dvbcsa_bs_stream.c: dvbcsa_bs_stream_cipher_batch", "src/dvbcsa_algo.c: dvbcsa_encrypt, dvbcsa_decrypt", "src/dvbcsa_stream.c: dvbcsa_stream_xor"]}
{"id": "C62", "title": "Payloads may be grouped, mixed and scheduled freely between sender and receiver", "statement": "A machine that handles many payloads under several control words - collecting them into batches per context, mixing batch and single-packet calls, changing control words between calls, reusing buffers, freeing and reallocating contexts - leaves in each payload DVB-CSA of the bytes that were there when the payload's call started, under the last control word its context was given before, if nothing touches the payload afterwards; memory no action concerns (headers of transport stream packets) stays as it is. So two machines with different builds, groupings and key schedules agree on every payload they process under the same control word, and what one encrypts the other decrypts to the original.", "quantifier": "all good builds on both sides, all histories of API calls and writes of the caller, all groupings into batches, control words, payloads, lengths and maxlen", "why_tests_cant": "Groupings and schedules are unbounded in number, and the claim relates two separate histories; a test exercises a few fixed ones.", "anchors": ["src/dvbcsa_bs_algo.c: dvbcsa_bs_encrypt, dvbcsa_bs_decrypt", "src/dvbcsa_algo.c: dvbcsa_encrypt, dvbcsa_decrypt", "src/dvbcsa_bs_key.c: dvbcsa_bs_key_set", "src/dvbcsa_bs_algo.c: dvbcsa_bs_key_alloc, dvbcsa_bs_key_free", "src/dvbcsa_block.c: dvbcsa_key_set", "src/dvbcsa_algo.c: dvbcsa_key_alloc, dvbcsa_key_free"]}
{"id": "C63", "title": "A call needs a fixed amount of stack", "statement": "The local arrays and structures of the functions active during a call take a fixed number of bytes: 56 for dvbcsa_key_set, 112 for dvbcsa_bs_key_set, 8 for a single packet of 8 bytes or more, and for a batch call 8136 (uint32), 16264 (uint64, MMX), 32520 (SSE2), 32648 (SSSE3, NEON) or 65288 (AVX2), however many packets there are and however long; with a maximum length of 0 it is 7748 (uint32), 15488 (uint64, MMX), 30968 (SSE2, SSSE3, NEON) or 61928 (AVX2); at most the former with any arguments, always less than 64 KiB.", "quantifier": "all calls, arguments, memory contents, builds", "why_tests_cant": "The amount must hold on every path through the call for every input; a test measures one compiled path.", "anchors": ["src/dvbcsa_bs.h: struct dvbcsa_bs_pkt_buf", "src/dvbcsa_bs_stream_kernel.h: struct dvbcsa_bs_stream_regs_s", "src/dvbcsa_bs_block.c: dvbcsa_bs_block_decrypt_block, dvbcsa_bs_block_encrypt_block, dvbcsa_bs_block_decrypt_register", "src/dvbcsa_bs_algo.c: dvbcsa_bs_decrypt, dvbcsa_bs_encrypt", "src/dvbcsa_key.c: dvbcsa_key_schedule_block"]}
{"id": "C64", "title": "Floating point is usable after batch calls, but in the MMX build not after batch key setup", "statement": "In the MMX build the registers shared with the floating point unit are cleared (EMMS) when dvbcsa_bs_encrypt or dvbcsa_bs_decrypt return, and stay so over any single-packet calls. dvbcsa_bs_key_set works on MMX words and does not clear them, so after any history whose last batch API call is a key setup the caller must not use floating point before it executes EMMS itself or makes another batch call. In the other builds no call touches these registers.", "quantifier": "all builds, all histories of API calls with any arguments", "why_tests_cant": "The state depends on the whole history of calls; tests do no floating point in between, and compilers may or may not show the effect.", "anchors": ["src/dvbcsa_bs_mmx.h: BS_EMPTY, dvbcsa_bs_word_t", "src/dvbcsa_bs_algo.c: dvbcsa_bs_decrypt, dvbcsa_bs_encrypt", "src/dvbcsa_bs_key.c: dvbcsa_bs_key_set"]}
{"id": "C65", "title": "A context contains its control word, and the library never erases it", "statement": "From the bytes of a context that has been given a control word the control word can be computed: the first 8 bytes of a single-packet context are the control word, and the last 64 words of a batch context are its bits. It can be read there after any history of calls as long as the context is neither given another control word nor freed. No function of the library wipes it, the functions that free a context included: if the C library's allocation and release functions leave memory alone, it can still be read after the context has been freed and its memory been allocated again, until a later key setup writes to that memory. An application that wants its keys gone must overwrite them itself (the context type is opaque and has no function for its size) or set another control word before freeing.", "quantifier": "all builds with a correct word header, both kinds of contexts, all control words, all histories of calls and of the caller's own writes, all addresses the allocator returns", "why_tests_cant": "that nothing in any history overwrites the key is a statement about all histories; a test looks at a few freed blocks", "anchors": ["src/dvbcsa_algo.c:dvbcsa_key_free", "src/dvbcsa_bs_algo.c:dvbcsa_bs_key_free", "src/dvbcsa_block.c:dvbcsa_key_set", "src/dvbcsa_bs_key.c:dvbcsa_bs_key_set", "src/dvbcsa_pv.h:struct dvbcsa_key_s", "src/dvbcsa_bs.h:struct dvbcsa_bs_key_s"]}
{"id": "C66", "title": "A program that follows the rules never meets undefined behaviour and cannot tell the library from an ideal one", "statement": "Take any program that allocates and frees contexts, reads and writes its own memory and calls the library, deciding what to do next from the answers it gets, for as long as it likes. If it follows the rules on an ideal machine, where a context just holds a control word and payloads are transformed by DVB-CSA, then on the real machine, whatever addresses and leftovers the allocator hands out and whatever uninitialised locals contain: no request ends in undefined behaviour, a bad free, an access outside the memory of the program and its live contexts, or an endless loop; every request returns; and the program gets exactly to the states, with contents of its own memory and sets of live contexts, that it can get to on the ideal machine. So what is proved about it on the ideal machine holds on the real one. The only other end is the failed assertion of batch context allocation where it is built on plain malloc.", "quantifier": "all programs and all their (unbounded) executions, builds, ABIs, allocators, memory contents", "why_tests_cant": "It ranges over all client programs and over everything the allocator and uninitialised memory may contribute.", "anchors": ["src/dvbcsa/dvbcsa.h: dvbcsa_key_alloc, dvbcsa_key_free, dvbcsa_key_set, dvbcsa_encrypt, dvbcsa_decrypt, dvbcsa_bs_key_alloc, dvbcsa_bs_key_free, dvbcsa_bs_key_set, dvbcsa_bs_encrypt, dvbcsa_bs_decrypt", "src/dvbcsa_algo.c: dvbcsa_encrypt, dvbcsa_decrypt, dvbcsa_key_alloc, dvbcsa_key_free", "src/dvbcsa_block.c: dvbcsa_key_set", "src/dvbcsa_key.c: dvbcsa_key_schedule_block", "src/dvbcsa_bs_key.c: dvbcsa_bs_key_set", "src/dvbcsa_bs_algo.c: dvbcsa_bs_encrypt, dvbcsa_bs_decrypt, dvbcsa_bs_key_alloc, dvbcsa_bs_key_free"]}
{"id": "C67", "title": "Programs with several threads are as safe and as simple as programs with one", "statement": "Take any number of threads that share memory, allocate and free contexts, call the library and hand contexts and payloads to each other, deciding from what they read. Suppose that on an ideal machine, where a call has its whole effect when it begins, no thread touches the memory that a call in progress works on or changes what it uses. Then on the real machine, where the calls of the threads interleave access by access: no undefined behaviour, bad free, access to foreign memory or data race ever comes up, and no loop goes on for more than 2^32+8 passes; the threads get exactly to the states, with memory not being worked on and live contexts, that they can get to on the ideal machine, so what is proved there holds here; and nobody waits: every call ends after a number of its own accesses that is fixed when it begins, whatever the other threads do. The only other end is the failed assertion of batch context allocation where it is built on plain malloc.", "quantifier": "all multi-threaded programs, numbers of threads, schedules, builds, ABIs, allocators and memory contents", "why_tests_cant": "It ranges over all client programs and all interleavings of their accesses.", "anchors": ["src/dvbcsa/dvbcsa.h: dvbcsa_key_alloc, dvbcsa_key_free, dvbcsa_key_set, dvbcsa_encrypt, dvbcsa_decrypt, dvbcsa_bs_key_alloc, dvbcsa_bs_key_free, dvbcsa_bs_key_set, dvbcsa_bs_encrypt, dvbcsa_bs_decrypt", "src/dvbcsa_algo.c: dvbcsa_encrypt, dvbcsa_decrypt, dvbcsa_key_alloc, dvbcsa_key_free", "src/dvbcsa_block.c: dvbcsa_key_set", "src/dvbcsa_key.c: dvbcsa_key_schedule_block", "src/dvbcsa_bs_key.c: dvbcsa_bs_key_set", "src/dvbcsa_bs_algo.c: dvbcsa_bs_encrypt, dvbcsa_bs_decrypt, dvbcsa_bs_key_alloc, dvbcsa_bs_key_free"]}
{"id": "C68", "title": "Late and reordered stores do not disturb threads that publish what they have done", "statement": "As C67, on a machine where what a library call stores does not get to memory at once: stores wait in a buffer of the thread and get to memory at any later time and in any order (stores to the same byte in the order in which they were made); a thread sees its own waiting stores and nobody else's; reads wait for nothing; only when a thread itself writes to the program's memory, allocates or releases have all its earlier stores got there (a fence). Suppose that the threads follow the rules of C67 on the ideal machine and in addition leave alone what another thread's finished call has written until that thread has published it by its next write, allocation or release. Then nothing goes wrong; no thread ever touches a byte for which another one has a waiting store; the threads get exactly to the states that the ideal machine, which has no buffers, can get to, and see at their turn what it holds, although a call can always return with all that it stored still waiting; and every call still ends after a number of its own accesses that is fixed when it begins, and every buffer can empty itself.", "quantifier": "all multi-threaded programs that publish, numbers of threads, schedules, delays and orders of stores, builds, ABIs, allocators and memory contents", "why_tests_cant": "It ranges over all client programs, all interleavings and all orders in which stores become visible; a test sees those of one machine.", "anchors": ["src/dvbcsa/dvbcsa.h: dvbcsa_key_alloc, dvbcsa_key_free, dvbcsa_key_set, dvbcsa_encrypt, dvbcsa_decrypt, dvbcsa_bs_key_alloc, dvbcsa_bs_key_free, dvbcsa_bs_key_set, dvbcsa_bs_encrypt, dvbcsa_bs_decrypt", "src/dvbcsa_algo.c: dvbcsa_encrypt, dvbcsa_decrypt, dvbcsa_key_alloc, dvbcsa_key_free", "src/dvbcsa_block.c: dvbcsa_key_set", "src/dvbcsa_key.c: dvbcsa_key_schedule_block", "src/dvbcsa_bs_key.c: dvbcsa_bs_key_set", "src/dvbcsa_bs_algo.c: dvbcsa_bs_encrypt, dvbcsa_bs_decrypt, dvbcsa_bs_key_alloc, dvbcsa_bs_key_free"]}
{"id": "C69", "title": "What configure passes to the compiler", "statement": "For all --enable options, user CFLAGS and compilers: the flags the library is compiled with contain the user's CFLAGS in their order, and with GCC or a compatible compiler nothing configure adds can change a setting other than those for which it adds a flag, so assertions (-DNDEBUG) and wrapping overflow (-fwrapv) are what the user says, which C50 relies on. The library's type punning is protected by may_alias types or by -fno-strict-aliasing exactly if the compiler is really GCC and accepts the attribute silently, or is GCC or compatible and accepts the flag (even if the user asks for -fstrict-aliasing), or the user's own flags say so. The instruction set of the requested implementation is switched on even against the user's flags; without --enable-debug the optimisation level is -O3 even against the user's CFLAGS, with it it is the user's. Debugging code is compiled exactly if --enable-debug is given or the user defines its macro. Compilers not compatible with GCC get the user's flags and nothing else.", "quantifier": "all values of all options, all lists of user flags, all compilers (which flags and attributes they accept), hosts and word types", "why_tests_cant": "There are unboundedly many flag lists and compilers; a test configures with one.", "anchors": ["configure.ac: GCC_CFLAGS, GCC_OPTIMIZE, CFLAGS, HAVE_ATTRIBUTE_MAY_ALIAS", "src/dvbcsa_pv.h: dvbcsa_u8_aliasing_t, dvbcsa_u16_aliasing_t, dvbcsa_u32_aliasing_t, dvbcsa_u64_aliasing_t"]}
