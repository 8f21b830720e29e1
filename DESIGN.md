# libdvbcsa in Lean 4: design

The deliverable is a Lean 4 model of the C library in /repo (all of `src/` except the AltiVec
header and debugging code, see "Not modelled") and kernel-checked proofs of the properties listed
in `properties.jsonl`. `MANIFEST.json` maps each property to its theorems.

## Layers

1. `Verif/Spec/Csa` – the **specification**: DVB-CSA as published (bit-permutation key schedule,
   56-round block cipher, nibble-register stream cipher, reverse-CBC packet mode), written over
   bytes, nibbles and lists, with no reference to the code's tables, packed registers or bitslicing.
   The S-boxes and permutations of the specification are its own literals. `Verif/Props/Vectors`
   validates it against the test vectors in /repo/test (`decide +kernel` on concrete values; these
   are tests of the specification, not part of any claim).
   `Verif/Spec/Machine` – the abstract machine for histories of API calls (C25).
2. `Verif/Model/Prog` – caller-visible memory (`Addr → Byte`) and C calls as *programs of single
   byte reads and writes* (`Prog`), with undefined behaviour (`ub`) and failed assertions (`abort`)
   as distinct outcomes. `run` executes a program; `Acc R W p` says that every access p can make,
   whatever memory answers, is a read in `R` or a write in `W` and that p does not fault.
   `Model/Exec` adds step-by-step execution, interruption after `n` accesses, the value-carrying
   trace and interleavings of several calls; `Model/Trace` the value-free trace.
3. `Verif/Model/*` – the **model of the code**, function by function, each definition citing file
   and lines.
   * `Scalar`, `Tables`: `dvbcsa_pv.h`, `dvbcsa_key.c`, `dvbcsa_block.c`, `dvbcsa_stream.c`,
     `dvbcsa_algo.c`; little- and big-endian variants.
   * `BsWord` (word operations of the uint32, uint64, MMX, SSE2, SSSE3, AVX2 and NEON headers),
     `BsTranspose`, `BsStream`, `BsBlock`, `BsAlgo`: the batch code. A `Build` record selects word
     header, byte order, alternative S-box lookup, i386 transposes, assertions, wrapping signed
     arithmetic. Word values are `BitVec`; arrays that the C code type-puns are byte arrays with
     explicit endianness; uninitialised locals are arbitrary parameters (`Garbage`).
   * `BsMem`: the batch calls with the descriptor array in caller memory (ILP32/LP64), read at every
     `pcks[i].…` of the C text.
   * `BsChecked`, `ScalarChecked`: a second, lower-level model in which every access to a local
     array, member array or constant table is checked against its declared size, loops over `b` are
     sequential and registers are updated in place in program order. Proved equal to the first
     model (C37), so all theorems transfer.
   * `Alloc`: `dvbcsa_key_alloc/free`, `dvbcsa_bs_key_alloc/free` over an arbitrary allocator.
4. `Verif/Proof/*` – lemmas.
5. `Verif/Props/*` – the property theorems, named `Cnn_…`, with `example`s beside them that
   instantiate all hypotheses on concrete, non-trivial data.
6. `Verif/Cases/*` – theorems of `Props` applied to concrete situations with every hypothesis
   discharged: one memory with contexts of four builds for one control word, batches of payloads,
   changed copies of payloads, arrays in memory, histories and thread programs.

## Properties: what is modelled and how it is proved

| id | modelled by | proof |
|----|-------------|-------|
| C01, C02, C17 | scalar calls as `Prog`, from the context a `key_set` left | refinement to the spec, then inverse lemmas on the spec (induction over blocks and over the 56 rounds; XOR involution); C17 also for every payload of a legal batch |
| C03 | scalar calls vs spec | tables: one kernel evaluation per whole table, lifted by bit lemmas; registers: simulation relation, induction over rounds, bytes and blocks |
| C04 | scalar and batch calls | the scalar calls return at once; batch: corollary of C06/C07 |
| C05, C14 | `Acc` on the programs | structural: every sub-program has a footprint; no assumption on memory contents |
| C06, C07 | full batch model | lane projection: every bit lane of the bitsliced state simulates the spec state; matrix transposes proved from a per-swap law; induction over rounds, blocks, packets. Tail lanes arbitrary |
| C08–C11 | batch refinement theorem (for all garbage) | corollaries, disjointness reasoning on memory |
| C12, C13 | `Build` record; each build proved lawful | corollary |
| C15, C16 | key setup programs | image of the context as a function of the control word; injectivity through the inverse of the bit permutation |
| C18–C20 | refinement + relational lemmas on the spec, for single calls and for payloads of legal batches | list induction |
| C21, C22 | assertion → `abort`; capacity, missing terminator → `ub` | case analysis, induction over the descriptor list |
| C23, C24, C29, C33 | negative findings | theorems about the model: witness or for-all statement; C33 by kernel evaluation of one lane and the C06 machinery, its round trip by inverting each round on all lanes (`Proof/BadDec`) |
| C25 | machine of API histories with an adversarial allocator | invariant over histories, refinement to `Spec/Machine` |
| C26 | interleaving semantics on `Prog` | non-interference from footprints, induction over the schedule; also: no data race. The `weak` theorems: the same on a machine with relaxed memory (`Model/Weak`: per-thread views, writes delivered in any order), by showing that each thread makes the accesses it makes alone. The `arrays` theorems: descriptor arrays in shared memory, via specialisation of the programs to the memory nobody writes |
| C27, C28 | trace order; execution stopped after `n` accesses | every batch program is reads followed by writes of final values |
| C30 | gather with arbitrary bytes behind the table | for all `pad` |
| C31 | refinement | corollary |
| C32 | `dvbcsa_bs_batch_size` | case analysis + capacity theorems |
| C34 | allocator model | case analysis on `posix_memalign` / `_mm_malloc` / `malloc` configuration |
| C35 | `BsMem` | refinement of the in-memory array to the list model under disjointness; witness for the aliasing finding |
| C36 | value-free traces | explicit trace for each program, by structural composition |
| C37 | `BsChecked`, `ScalarChecked` | relational proof (`RelP`) that both models are the *same program*; index arithmetic by `omega` |
| C38 | `BsChecked` with assertions off | same-program lemma for rounded `maxlen`; fault propagation for the odd case |
| C39 | same model | difference propagation in the specification (`Proof/SpecDiff`), transported by C03 and C06 |
| C40 | same model | injectivity of the block cipher, induction along the reverse chain, transported by C03 and C07 |
| C41 | same model | exact effect of key setup for every overlap (`Proof/KeyAlias`), counterexample control word 01..08 |
| C42 | `Model/Stages`: the four API functions with their conditional sections, `Spec/Stages`: DVB-CSA with a stage left out | reuse of the batch-stage refinements (`Proof/Stages`) for every combination |
| C43 | `Model/SelfTest`: test/testbitslice.c over an arbitrary library record, `Model/OpsTest`: test/testbsops.c, `Model/TestProgs`: testenc.c, testdec.c | key readiness and C03/C06/C08 for the real library; inversion of `run` for any library |
| C44 | `Model/Debug`: `worddump` | XOR index arithmetic (`j ^ (ws-1)` stays in an aligned power-of-two block) |
| C45 | `BsChecked` with assertions off | loop invariant on the slot pointer, fault in the last pass (`Proof/CheckedOver`); converse and the single long payload: the lane theorems with a slot of any length (`Proof/OverLong`) |
| C46 | `Model/Heap`: live blocks with the family of functions they belong to | induction over the program with the correspondence between held contexts and live blocks |
| C47 | interleaving semantics of C26 | the call is split at the stage boundary (`Proof/Rekey`), the other thread's whole call scheduled in between; stage results from C42 |
| C48 | `Model/TestProgs`: the five benchmark programs | the measuring loops are one long loop (`rounds_eq`); induction on its length, the call theorems for each pass |
| C49 | `Model/Aligned`: the batch API with an alignment check at every access through a pointer to a wider type; the requirements of the target are an argument | with aligned context and array every check disappears (the programs are equal to the unchecked ones), then C34/C35; misaligned: the first checked access |
| C50 | `Model/Configure`: configure.ac, header and source selection; `Model/Stray`: the library that a stray `transpose_32=yes` gives | case analysis over the selection chain; then C29/C06/C07 for the resulting build; for the stray library (`Proof/Stray`) the bytes 4-7 of every keystream slot are shown to depend on bytes 4-7 of the first block and on uninitialised words only, so of two ciphertexts that differ in bytes 0-3 one is wrong |
| C51 | `Model/TabMem`: the single-packet functions and key setups with every table look-up a memory read; `Model/TabBs`: the batch calls likewise | simulation against the plain functions; equal traces force equal key permutation indices (key setup) resp. equal S-box indices round after round, hence equal round keys (C16); the `lines` theorems: what is seen of a look-up is any function of its address; the key permutation carries every control word bit through the upper bits of an index (`decide` on the 64 positions) |
| C52 | `Model/TabMem`, `Model/TabBs`, `Model/TabRows` | relation between two programs step by step (same access or same row, whatever is read), composed through all functions |
| C53 | `Model/Scalar`, `Model/Bs*`; `Spec/AnyKey` (DVB-CSA with arbitrary round and stream keys) | the refinement proofs of C03, C06, C07 redone with key material per packet (`Proof/AnyKey*`), inversion round by round |
| C54 | `Model/Exec` (`stop`); `Props/Interrupt` (interruptions as a tree) | programs with separate footprints commute; induction over the tree of interruptions |
| C55 | `Spec/Threads` (threads, rules, interleaved machine), `Spec/Machine` (ideal machine) | simulation: each state of the concurrent machine is related to the sequential one in which every call is done when it begins |
| C56 | `Model/Loops`: the loops of the packet calls with the conditions, steps and 32-bit counters of the C text, executed with a limit on the passes | each loop makes the passes of the other models (`Ends.loop`, invariants tying the counter to the number of passes); the converse by induction on the limit |
| C57 | `Model/Ptr`: the batch functions with every move of a pointer into the packet buffer checked | a loop that moves a pointer by a fixed amount is its plain version guarded by one condition (`loop_guard`); equality of programs on the results that occur (`bind_congr_post`) |
| C58 | `Model/Sync`: a machine with relaxed memory and synchronisation (every access recorded with what happened before it; a read returns any write not known to be overwritten; messages carry knowledge); `Spec/Handover`: jobs, the rule, the order in which jobs began | invariant: conflicting accesses are ordered by happens-before, so every read of a job in progress has one possible value, and the execution is one of a machine with a single memory (as for C55) |
| C59 | `Model/Work`: the API functions with a count at every cipher round, packet of a loop and byte copied | relation `Costs`: the counting program is the plain one followed by a constant count; composed along the code, loops by induction |
| C60 | `Model/Fetch`: `Behaves` (each read of a program may return anything), the accesses of a thread of `Conf` under a schedule | the load loop followed through `Behaves` gives a snapshot; the cipher part reads only the context (footprint), so it computes what it computes on the snapshot; the store loop writes it. Threads: accesses of a thread are a `Behaves`; coherence of reads and writes of memory nobody else writes |
| C61 | `Model/Whole`: every API function with all checks of the other refinements in it at once (arrays, tables, pointer moves, alignment, `int` overflow, descriptor reads, loop counters with a limit on the passes) | each loop of `Model/Whole` is shown equal, given enough passes, to the unchecked one (`Ends`, an invariant bounding the pointer and the packet count); the calls then run as in C35 and C03; conversely (`Proof/WholeUb`) every run of the cipher part is read-only and ends with `ub` or with the checks satisfied, so the alignment and pointer rules are also necessary |
| C62 | the machines of C25 (`Spec/Machine`); `Spec/Receiver`: the payloads of a call, what touches a byte, `Handled` | `C25_history` (simulation) reduces it to the ideal machine, where a call changes a payload as stated (induction over the batch) and other actions leave it (induction over the history) |
| C63 | `Model/Foot`: the calls with the sizes of the local arrays of active functions | `Notes`: the annotated call is the call and records a fixed footprint; induction over the loops, a pass adds nothing to the maximum |
| C64 | `Model/Foot`: whether MMX code or EMMS came last | the same; induction over the history |
| C65 | `Spec/Machine` histories; `readOut` computes the control word from the bytes of a context | from the context image (C01, C16); the history theorems by induction with the footprints of the calls (C05, C14) |
| C66 | `Spec/Program`: client programs, the ideal machine with the rules, the real machine (heap, memory, `Model/Whole` code with all its checks) | simulation: an invariant relating heap and memory to the ideal state, kept by every request; per-call facts from C04, C05, C14, C49, C61; `Props/Realise`: conversely every ideal run is realised |
| C67 | `Spec/ThreadProg`: threads of client programs on an ideal machine (a call takes effect when it begins) and on the real one (accesses of `Model/Whole` code interleaved) | simulation with a ghost sequential machine in which every call is done when it begins; the rest of each call, run in any memory that agrees on what it uses, ends like the ghost one; `Props/Realise` for the converse |
| C68 | `Spec/LateStores`: the machine of C67 with a buffer of waiting stores per thread, drained in any order; the rule about publishing | simulation with the machine of C67: its memory is the real one after all waiting stores; a waiting store is to a byte that its thread's call in progress or an unpublished finished call writes, so nobody else touches it; `Props/LateRealise` for the converse |
| C69 | `Model/Flags`: how configure.ac puts the compiler flags together | lists of words; the flags are the user's followed by words from a fixed set, then case analysis |

## Trusted base

* Lean's kernel (`vcheck` replays every module). Axioms used: at most `propext`,
  `Classical.choice`, `Quot.sound`; no axiom of our own, no compiled evaluation
  (`decide +kernel` is evaluated by the kernel).
* The transcription of C into Lean, definition by definition, as cited in the comments.
* The reading of the English properties as the theorem statements, which use `Spec/Csa`,
  `Spec/Machine`, `Spec/Program`, `Spec/ThreadProg`, `Spec/LateStores`, `Model/Prog`, `Model/Exec`, `Props/Defs`, `Props/BatchDefs` and the API functions.

### Simplifications (each also stated at its definition)

* Addresses are unbounded naturals; objects do not wrap around. Memory is byte-granular; a
  multi-byte load is a sequence of byte reads, `memcpy` goes upwards. Concurrency is interleaving of
  byte accesses (sequential consistency); C26 also proves that legal concurrent calls have no data
  race, which is what makes this adequate for C11-style memory models, and (`C26_weak_*`, on
  `Model/Weak`) that the outcome is the same on a memory where writes become visible to other
  threads late, in any order, or not at all before a join.
* Conversion of out-of-range `unsigned` to `int` is two's complement (what gcc and clang do).
  Signed overflow is undefined unless `bd.wrapv`.
* In the first batch model the loops over `b` (bit planes) are simultaneous updates and the packet
  registers functions of the row index; C37 proves this equal to the sequential, in-place version.
* Pointers that are computed but not dereferenced are not checked, except in `Model/Ptr` (C57).
* Loops with a variable bound are recursions on the number of passes; `Model/Loops` has them with
  their literal conditions and 32-bit counters, and C56 says that the two agree (for `maxlen` above
  2^32 - 8, reachable only without assertions, the counter wraps and the literal loop does not end).
* The allocator is an oracle: any address not overlapping live blocks, or failure.
* Vector intrinsics are modelled by their documented effect on lanes.
* `BS_EMPTY` (EMMS) has no effect on memory; `Model/Foot` (C64) has its effect on the registers.

### Not modelled

* The AltiVec header: it does not compile at this commit (`BS_SHR(…, 8)` expands to the undefined
  `SHVAL_8`).
* In `test/`: the `printf`s, the clock and the scheduler calls of the programs, and the output format of
  `worddump` below bytes and separators.
* The compiler, strict aliasing (but C69: it is switched off or `may_alias` types are used), stack use beyond declared arrays (C63), timing, caches. (Concurrency is proved on a sequentially consistent machine; C26 also on the relaxed one of
  `Model/Weak`, C58 on the one with synchronisation of `Model/Sync`, C68 on the one with buffers of `Spec/LateStores`. On none does a read return a
  value that is written later.)

## Findings about the code that the theorems record

* C23: entries longer than 184 bytes corrupt the neighbouring packet (README says otherwise). `C23_encrypt_any`/`C23_decrypt_any` give the exact result for every batch that fits the buffer; behind an empty neighbour the tail is sent under the stream cipher alone, seeded by its own clear bytes (`C23_encrypt_empty_neighbour`).
* C24: `dvbcsa_encrypt` is wrong from `len = 2^31 + 16` on.
* C29: signed overflow in the uint32 key setup for most control words.
* C30/C37: the AVX2 gather reads two bytes behind its table (harmless to the result).
* C33: AVX2 together with `--enable-alt-sbox` does not compute DVB-CSA in either direction, although a batch round trip of
  equally long payloads comes back right.
* C34: with the plain `malloc` fallback and assertions off, alignment is not guaranteed;
  the next `dvbcsa_bs_key_set` is then undefined (C49).
* C35: the descriptor array is read again while results are written, so an array overlapping a
  payload lets decrypted data choose addresses.
* C38: with `NDEBUG`, `dvbcsa_bs_encrypt` with `maxlen % 8 != 0` writes in front of its buffer.
* C41: key setup reads the control word twice; overlapping it with the start of a context (single) or its stream words (batch) gives a wrong context.
* C44: `worddump` reads past `len` when the word size does not divide it, and its `unsigned` counter never reaches a `len` of 2^32 or more.
* C45: with `NDEBUG`, `maxlen > 184` in a full batch leaves the internal packet buffer in both calls. A
  single longer payload works (up to 184 bytes per slot).
* C46: a batch context must not be released with `dvbcsa_key_free` (wrong under `_mm_malloc`).
* C47: a key change during a call in another thread can give a payload right for neither control word.
* C50: `configure` without options gives 32-bit words, hence the undefined key setup of C29, wherever
  `long` is not 8 bytes; `transpose_32` is not initialised, so the environment can break a build
  (the library then computes wrong results, `C50_stray_wrong`).
* C69: without `--enable-debug` the user's `-O` in `CFLAGS` has no effect (`-O3` comes last); compilers that are not
  compatible with GCC get neither the instruction set flag nor protection of the type punning.
* C56: with `NDEBUG`, a batch call with `maxlen > 2^32 - 8` (such as `(unsigned)-1`) never returns, even
  without payloads.
* C57: after the last packet of a full batch `block += BS_PKT_BLOCKS8` points up to 176 bytes past the
  end of `data[]`, undefined in the strict sense of the C standard.
* C59: the README's "_same_ time" for partial batches is exact for the cipher rounds only; the loops over the
  packets are shorter for fewer packets.
* C60: the calls read the array of descriptors twice, `dvbcsa_pkt_buf_load` and again
  `dvbcsa_pkt_buf_store` (a length also twice within the load). A caller that lets someone else change the
  array during a call gets writes to buffers that were never read (`C60_array_changed`). The payloads
  themselves are fetched once, so a batch call on a buffer that is being overwritten still processes some
  consistent snapshot; `dvbcsa_decrypt` does not (`C60_single_torn`).
* C63: a batch call of the AVX2 build has 65288 bytes of local arrays, 248 short of 64 KiB: not for small
  thread stacks.
* C64: in the MMX build `dvbcsa_bs_key_set` may use MMX registers but, unlike the encryption calls, does
  not execute EMMS before it returns.
* C65: neither free function wipes the context, and there is no other function that would; the control
  word stays in the freed memory until something overwrites it.

## Seeded bugs

`seeded/LOG.jsonl` records wrong programs tried against the theorems: each line is one edit of a
model definition in a scratch copy, the claims it should break and the theorems that failed. Entries
`a001`, … are single-token edits made at random places of `Model/` and `Spec/`, kept when the edited
definition still compiles; their `claim_broken` lists the properties whose theorems were lost.
