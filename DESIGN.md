# Formal model of ruy: design

Subject: google/ruy at the pinned commit in `/repo` (C++). The code is read as
text only; it is never built or run. The model lives in `lean/Verif/`, the
properties in `properties.jsonl`, their status in `MANIFEST.json`, and the
mutation log in `seeded/LOG.jsonl`.

## Conventions

* **Undefined behaviour is an outcome.** Code whose safety is at stake is
  modelled in the monad `C = Except Fault` with `Fault = ub | abort`.
  `ub`: signed overflow, out-of-range shift, `clz(0)`, out-of-bounds access,
  use after free.  `abort`: a failing `RUY_CHECK` or `RUY_DCHECK`.  A theorem
  "the call is `.ok`" therefore covers debug and release builds.
* Non-negative `int`s are `Nat`, others `Int`; every place where the C++
  computes in `int`, `int32_t` or `uint32_t` and the result could leave the
  type has an explicit range check (or wrap-around for unsigned types).
* **Memory** is a buffer with a size; an access outside it is `ub`.
* **Concurrency** is an interleaving transition system: one atomic access, one
  mutex operation or one non-atomic critical action per step, arbitrary
  schedules given as a relation. Acquire/release orders are treated as
  sequentially consistent; in addition the theorems state the synchronisation
  edges (who observed which release store) explicitly.
* Each model definition cites the file and lines it models.  A script checked that every cited range
  exists and, where the comment names a function, that the name occurs in it.  Ranges without a name
  were only checked to exist; they may be off by a line or two.
* Models: `Verif/<Area>/Model.lean`; helper lemmas: `Verif/<Area>/Lemmas*.lean`;
  properties: `Verif/<Area>/Props.lean` (specifications are written there
  independently of the model's helpers, each followed by an `example` showing
  a concrete non-trivial instance of its hypotheses).
* If the code violates a property, its negation is proved with a concrete
  witness, and the strongest true variant is proved as `..._partial`.

## Trusted base

* Lean 4.33.0 kernel; axioms at most `propext`, `Classical.choice`,
  `Quot.sound` (checked with `#print axioms`).
* The faithfulness of the hand-written model to the C++ text, and of the
  generated machine code in `Neon/*Code*.lean`, `NeonF/*Code*.lean`, `Arm32/*Code*.lean` to the `asm` statements (the
  generator was a one-off script; each block cites its lines).
* C++ integer model: 32-bit `int`, two's complement, arithmetic right shift of
  negative values (implementation-defined before C++20, universal in practice).
* `std::atomic`, `std::mutex`, `std::condition_variable`, `std::thread` behave
  as in the standard, atomics sequentially consistent in the interleaving
  models.
* The OS/system allocator is a parameter: any fresh, aligned, disjoint block
  or null.
* The meaning of the x86 intrinsics (`Simd/Lane`, `PackIsa`, `KernIsa`,
  `Regs`) and of the A64 and A32 instructions (`Neon/Isa`, `NeonF/Isa`, `Arm32/Isa`), written from the vendors'
  manuals.
* Not modelled: profiling and tracing macros, timing, build configuration
  other than default options (`opt_set.h` default: all optimisations on).

* **Memory model** (C75, `Verif/Race/Cpp.lean`).  The axioms of the C++20 memory model are written down as a definition:
  happens-before from program order, release/acquire synchronization with release sequences, thread creation and
  join; coherence; read-modify-writes read the write just before them.  Out-of-thin-air values need no axiom here.
  `compare_exchange_strong` does not fail spuriously.  Operations without an order argument count as acquire or
  release.  An execution may have any further synchronization edges (`Exec.ext`), for mutexes and the like; nothing is
  assumed about them but that happens-before has no cycle.  A program without data races behaves as if its calls ran one after another in some order that respects
  happens-before (the guarantee that the standard gives for race-free programs); `c75_order` is about all such
  orders.  Initialization of the atomics and packing of prepacked sides happen before the tasks.
* **Thread pool in the memory model** (C76, `Verif/Race/Pool.lean`).  `task_` is a plain pointer in the code and a relaxed
  atomic in the model, which allows more executions; `c76_no_race` shows that its accesses do not race.  Spinning and
  passive waiting are one loop of loads; the ordering that mutexes add is in `Exec.ext` (C12 has mutexes and condition
  variables).  `task_` holds the identity of the Task object, not its address.  The constructor of a worker stores
  `state_` before `task_`; in the code the member initializer of `task_` comes first; both precede the thread.

## Simplifications, area by area

* **`Base`, `SizeUtil`, `BlockMap`.** `int` arithmetic with explicit range
  checks; `RUY_DCHECK` counts as a stop, that is, theorems about functions
  with checks are about debug builds and carry over to release builds
  whenever they show that no check fails.
* **`Mul`, `TrMul`, `Front`.** Buffers are functions on indices with a size.
  A kernel call is one step over the whole destination region in the
  sequential model. In the interleaving model a call of `RunPack` or
  `RunKernel` takes effect when it returns; `c05_threads_disjoint` and
  `c06_no_race` justify this (overlapping calls touch different blocks).
* **`Float`.** Floating-point arithmetic is a structure of abstract operations
  with explicit laws; an IEEE-style instance (any format, rounding mode,
  flush-to-zero) satisfies the laws used. The zero point of a float matrix is
  +0.0 (a caller could set -0.0), NaN payloads are values, contraction of
  `a*b+c` into an FMA by the compiler is not modelled.
* **`Pool`.** One step per atomic, mutex or condition-variable operation,
  sequentially consistent. `i * stride` in `Execute` is exact. The clock read
  by the spin loop is an arbitrary Boolean per iteration.
* **`Alloc`.** Sizes are naturals (no `size_t` wrap-around).
* **`Cache`.** Buffers are handles with sizes and contents as values rather
  than bytes; timestamps are naturals (no wrap-around of the 64-bit counter).
  The key has no data type, as in the code.
* **`Ctx`, `Params`, `Tune`, `CpuInfo`, `Fpu`.** The environment, the clock,
  the answers of `cpuinfo` and the contents of control registers are
  arguments; fewer than 2^31 processors; a C++ exception counts as a stop.
* **`Simd`.** Lanes are signed integers wrapped to their width. Pointer
  arithmetic on addresses that are not dereferenced is not modelled, nor are
  strict aliasing and alignment of `reinterpret_cast` loads. The undefined
  upper half after `_mm256_castsi128_si256` is arbitrary and shown not to
  matter. Narrowing of a `size_t` stride to `int32_t` is undefined behaviour
  if the value does not fit. The RHS staging buffer (`rhs_data_buf`) is the
  identity. Vectors of bias, multiplier and exponent are loaded in full, so
  reads past a per-channel buffer are faults.
* **`Neon`.** Memory is split into regions (packed sides, sums, bias,
  multiplier fixed point and exponent, destination, scratch buffer) that do
  not overlap; fields of the parameter struct are read by name instead of
  offset; prefetches are dropped; a sticky flag `bad` records every access
  outside its region and every use of an undefined value; a `uint8_t` operand
  of `asm` is zero-extended. Depth is at least 16 as the code requires. The
  operands of an `asm` statement are in different registers (the statements
  have no early-clobber marks, so a compiler that knew two of them to be equal
  could share a register).

## Where the code departs from the properties

Each line is a theorem about the model with a concrete witness.

* **C01** int overflow of the accumulator makes `Mul` undefined although
  `ReferenceMul` returns with a wider accumulator.
* **C10** three overflows in the block-size heuristics for large matrices.
* **C17** a failed reallocation inside `FreeAll` leads to a bogus non-null
  pointer on the next request.
* **C18** the cache key has neither side nor source dimensions.
* **C19** `EjectOne` subtracts sums of float matrices that were never added.
* **C21** packing the RHS can eject the LHS that the same call is using.
* **C24–C26** NEON and x86 multiplier sequences overflow where the reference
  saturates or is exact; the x86 sequences round differently by one.
* **C27** the default multiplier is 0, every entry becomes the zero point.
* **C32** offsets of matrices above 2^31 entries overflow `int`.
* **C33, C34** `RUY_PATHS` can select unsupported paths and lose the portable
  one; **C35** the check of the kernel's path is never instantiated and the
  int8 AVX kernel declares another path.
* **C36** a non-positive `max_num_threads` fails a check.
* **C37** the shortcut to the simple loop asks about source dimensions, the
  block map would be made for packed ones.
* **C38** depth 0 with both sides cached writes the destination.
* **C39** without debug checks a stale multiplier becomes visible.
* **C41** constants used when `cpuinfo` fails are not conservative; caches of
  2 GiB or more give negative sizes.
* **C42** cached matrices are packed before denormals are suppressed.
* **C43** two-argument `round_up_pot` overflows although the result fits.
* **C44** generic float packing turns -0.0 into +0.0, the fast one does not.
* **C47** NaN payloads differ for row-major destinations.
* **C48** int16 stores and x86 add the zero point modulo 2^32 before clamping.
* **C49** padding columns written by AVX-512 and row-major packing differ.
* **C50** `c50_one_more`, `c50_zero_point`, `c50_stride`: multiplier rounding,
  wrapped zero-point addition, strides narrowed to `int32_t`.
* **C51** a null pointer from the cache's allocator is dereferenced.
* **C56** columns beyond the source hold 0 instead of the zero point
  (`c56_generic_false`), the pointer to the sums is not tested
  (`c56_null_sums`), offsets are computed in `int` (`c56_overflow`).
* **C55**, **C66**, **C67** offsets of blocks are computed in `int` (`c55_overflow`, `c66_overflow`, `c67_overflow`).
* **C67** the pointer to the sums is not tested for null (`c67_null_sums`), as in C56 and unlike C55 and C66.
* **C68** kNeon and kNeonDotprod differ on inputs that both accept: where kNeon is wrong (C59) kNeonDotprod is right
  (`c68_paths_differ`).
* **C70** from depth 8 on `KernelFloatNeon` adds one level of depth later than the three after it, except in the first
  four rows and columns of each 8x8 block (`c70_generic`).  The result of a float multiplication therefore depends on
  the tuning, and equal rows and columns can give different entries (`c70_differ`).  With depth 0 the kernels read the
  first level of an empty packed matrix (`c70_depth0`).
* **C72** the assembly code keeps -0.0, the portable packing turns it into 0.0 (`c72_minus_zero`; as in C44).  The
  offset of a block of columns is computed in `int` (`c72_overflow`).
* **C73, C74** tunings do influence the result from depth 8 on, because the kernels add in different orders (C70): the same
  multiplication can leave different floats on different cores of one processor, and from one execution to the
  next (`c73_differ`, `c74_differ`).  The difference is bounded (`c74_close`).
* **C79** `ScopeProfile::Sample` (profiler.cc:81-83) keeps the size of the buffer in an `int`: after
  2^31 bytes of samples the sum overflows (`c78_overflow`; a thread in one scope takes 40 bytes a
  sample, a thread in 64 scopes 2056, so that eight such threads take little more than two minutes).
  A scope that is called `[other]` gets a sibling of the same name (`c78_distinct_false`).
  `WeightBelowNodeMatchingFunction` adds up matching nodes below matching nodes, so that recursive
  functions count several times (`c78_matching_nested`).
* **C80** `Kernel8bitNeonDotprod1Col` executes `dup d20, v16.d[1]` (kernel_arm64.cc:5977 and 6072)
  but its clobber list ends with `v17` (kernel_arm64.cc:6350-6352): every call with an uint8 or int8
  destination changes `v20` behind the back of the compiler (`c80_doto_wipes`, `c80_doto_false`).  The
  value is not used, so the two instructions could be dropped.  All other statements keep to their
  lists.
* **C81** `KernelFloat32Neon` writes `q11`, `q14` and `q15` (kernel_arm32.cc:336-339) when the
  channels are columns, but its clobber list omits them (kernel_arm32.cc:529-531; the comment at
  line 110 calls them unused).  Every call with channels as columns overwrites them
  (`c81_overwritten`, `c81_clobber_false`), no call with channels as rows does
  (`c81_clobber_partial`).  `dst_cols` is the only field in use whose offset is not checked
  (kernel_arm32.cc:56-75).  Depth 0 reads beyond the packed matrix (`c81_depth0`), as in C70.
* **C82** The LHS is packed eight columns at a time in two blocks of four; for the second block
  `src_stride * block_col` is computed even if the matrix has no such column.  With one column and
  stride 2^29 it overflows `int` (`c82_overflow`).  The RHS has no such block, and in a 32-bit
  address space its offsets cannot overflow (`c82_narrow`).
* **C83** `Kernel8bitNeon` for ARM32 writes `q11` in every call, but the clobber list of its `asm`
  statement goes from `q10` to `q12`; every call leaves 0 in it (`c83_clobber_false`).  The check
  for int32 destinations (kernel_arm32.cc:1002-1006) stands before label 402 in the code that is
  skipped if the LHS has no sums; without sums int32 accumulators are down-quantized and stored as
  uint8 (`c83_raw`, `c83_raw_false`).  The packing code of this library always makes sums, so this
  is latent.  Pairs of products are reduced to int16 as in C54 (`c83_int16`).
  `CheckOffsetsInKernelParams8bit` (kernel_arm32.cc:592-626) leaves out `rhs_base_ptr`,
  `dst_base_ptr`, `start_col`, `dst_rows`, `dst_cols` and `dst_type_id`.
* **C84** `Pack8bitColMajorForNeon4Cols` accumulates the sums of columns 2 and 3 in `q14` and
  `q15`, but the clobber list of its `asm` statement, the same as in the function for two columns,
  ends at `q13` (pack_arm.cc:468-469): whatever the registers hold is lost (`c84_clobber_false`).
  Both statements advance `packed_ptr` with `[%[packed_ptr]]!` though it is only an input operand
  (pack_arm.cc:467, 606), which the compiler may assume to be unchanged (`c84_operand_false`); the
  functions do not use it afterwards.  As in C55 the offset of a block is computed in `int` and can
  overflow within a 32-bit address space (`c84_overflow`); below 2^31 bytes it cannot
  (`c84_offsets`).  The test in the loop for two columns (`block_col >= cols - 2`, pack_arm.h:248)
  is one column earlier than needed, which is harmless.
* **C85** `Kernel8bitNeon1Col` for ARM32 has the same three faults as C83: `q11` is written in every
  call but is not in the clobber list (kernel_arm32.cc:2489-2490, `c85_clobber_false`), int32
  destinations without sums of the LHS are stored as uint8 (`c85_raw_false`), and pairs of products
  are reduced to int16 (`c85_int16`).  Otherwise both kernels leave the same memory (`c85_agrees`).
* **C86** As C56 for two kernel columns: columns beyond the source are filled with 0, not with the
  zero point, so the packed matrix differs there from the portable one (`c86_generic_false`;
  `c86_generic_partial` gives agreement in the columns of the source); a null `sums` is dereferenced
  (`c86_null_sums`), and an int offset can overflow in a buffer below 4 GB (`c86_overflow`).
* **C87** 8-bit multiplication on 32-bit ARM is wrong in the same cases as on AArch64 (C59), and by the
  same amount (`c87_aarch64`): -128 by -128 at depths k and k + 8 of a group of 16 (`c87_lost`), and
  uint8 operands with zero points 0 whose depth modulo 16 is between 1 and 7 (`c87_padding`).
* **C89** The overflow of C82 makes multiplications with huge strides undefined on 32-bit ARM although
  their matrices fit in memory (`c89_overflow`); this cannot happen for the RHS (`c89_offsets`).
  Products are rounded before they are added, which AArch64 does not do, so the two paths can
  leave different results for the same sources at depth 2 (`c89_differ`, `c89_neon_differ`).
  Advanced SIMD of the 32-bit architecture takes denormal operands for zero: 2^-127 times 2^127 is
  stored as 0, outside any bound relative to the magnitudes (`c89_denormal`).
* **C92**: int16 sources other than columns on AVX-512 are packed by the generic code, whose int32 sums overflow for depths from 2^16 on
  (`c92_row_overflow`); nothing checks the depth.
* **C100**: nothing checks that the lower clamp bound (mul_params.h:151-156) is not above the upper one.  If it is, x86 kernels,
  which apply the upper bound first, store the lower bound, ARM kernels the upper bound (`c100_bounds`).
* **C91** is false for padding columns: when the second half of a block of sixteen has no source column, rows from
  the last multiple of sixteen on are filled with 0 and not with the zero point, as in C49 (`c91_padding`).
* **C54** `-128 * -128` at depths `k` and `k + 8` overflows the int16 sum in
  the AArch64 kernel.
* **C59** the same end to end (`c59_lost`); and uint8 matrices with zero points
  0, for which `ValidateZeroPoints` is switched off (validate.h:67-74): if the
  depth modulo 16 is in 1..7, padding alone makes every entry wrong by a multiple of 2^16
  before the output stage, whatever the operands are (`c59_padding_all`, `c59_padding`:
  the kNeon product of the 1x1 matrices 1 and 1 is 1 - 7·2^16).
* **C61** the x86 float kernels turn a NaN into `clamp_max`, ReferenceMul and the
  portable kernel keep it (`c61_nan`, `c61_nan_reference`); with depth 0 the AVX-512 kernel reads beyond empty
  packed matrices (`c61_depth0`); destination strides of 2^29 or more wrap in bytes (`c61_stride`).
* **C65** the test for an int32 destination is inside the branch for LHS sums, in
  all dot-product kernels; without that flag an int32 destination would be stored as uint8 (`c65_flag`).
  Not reachable: 8-bit packed matrices have sums.

## Plan per property

| Id | Modelled | Proof |
|----|----------|-------|
| C01 | packing, `Kernel::Run`, `RunKernelTyped`, `ReferenceMul`, front end for the portable paths with arbitrary fixed kernel layouts, int32 overflow = ub | functional correctness by algebra on finite sums; explicit no-overflow condition for 8-bit |
| C02 | padding in `PackImpl::Run`, clamped ends in `Kernel::Run` | identity on padded sums; corollary of C01 |
| C03 | destination buffer as memory | frame theorem for kernel and whole TrMul |
| C04 | interleaving model of TrMulTask instantiated with real pack/kernel steps | confluence via invariants; final memory equals spec |
| C05 | atomic block counter protocol | inductive invariant: index sets owned by threads partition the consumed prefix |
| C06 | TryPack/EnsurePacked status machine incl. local flags | inductive invariant; race freedom: no conflicting accesses enabled together |
| C07 | same | progress lemma + decreasing measure |
| C08 | four decoders on 32-bit words, `GetBlockByIndex` | explicit inverse for each curve by induction on size / bit lemmas |
| C09 | `MakeBlockMap`, `GetBlockMatrixCoords` | arithmetic |
| C10 | all heuristic functions with overflow checks | sufficient condition proved; negation at 16384^3 float |
| C11-C13 | ThreadPool/Thread/BlockingCounter/Wait transition system with mutexes, condvars, spurious wake-ups | inductive invariant over arbitrary histories; progress |
| C14-C17 | Allocator over an abstract system allocator (possibly failing) | invariant over op lists; negation for C17 |
| C18-C22 | PrepackedCache + PreparePackedMatrices, heap of buffers with liveness | invariants over histories; negations with witnesses for C18, C19 (float), C21 |
| C23 | ShouldCache, PreparePackedMatrices | decision table |
| C24 | MultiplyByQuantizedMultiplier with int64 checks | floor/rounding characterisation |
| C25, C26, C48 | per-lane integer semantics of the SIMD instructions used | arithmetic; negations by witness |
| C27 | MulParamsStorage defaults | negation by witness |
| C28 | final clamp and cast | arithmetic |
| C29 | EnsurePerChannelBuffersLargeEnough, kernel reads | list lemmas |
| C30 | CreateTrMulParams transposition | refinement to the same specification |
| C31 | Pack with type change, XOR encoding | algebra |
| C32 | Offset, FlatSize for both layouts | injectivity via div/mod decomposition |
| C33-C35 | Path bit sets, Ctx state machine, PathSearch recursion | bit lemmas, histories; negation for env var |
| C36 | thread-count functions | arithmetic; negation for non-positive maximum |
| C37 | simple loop, IsObviouslyLinearTraversal | equality of results; condition |
| C38 | degenerate shapes through the front end | case analysis |
| C39 | setter/getter state machine | induction over call lists |
| C40 | TuningResolver with clock | induction over histories |
| C41 | QueryCacheParams over arbitrary topologies | induction |
| C42 | control-register save/restore | bit lemmas; nesting |
| C43 | size_util on bounded ints | Nat.log2 lemmas |
| C44, C45 | packing functions | pointwise equality |
| C46 | Ctx advisories | history induction |
| C47 | kernel and reference over an abstract arithmetic | equality of fold terms |
| C49, C50 | x86 intrinsics as lane functions | pointwise equality |
| C51 | cache packing with a failing allocator | witness; other cases by case analysis |
| C52 | x86 packing and kernels on one memory, any list of calls | invariant: packed panels and stored blocks hold the specified values |
| C53 | C52 driven by the interleaving model of C04-C07 | simulation: every run is a list of calls |
| C54 | the AArch64 8-bit `asm` as machine code over registers, flags and memory | block-wise symbolic execution, loop invariants, decoding of the final memory |
| C55 | the two column-major packing `asm` statements as machine code, and the loop around them as a relation between memories | one theorem for both, parametrised by the blocks that differ; induction over column blocks |
| C56 | the row-major packing function (intrinsics) and the loop around it, on bytes | invariant over 16 rows at a time and columns from left to right; the transposition by evaluation on a symbolic block |
| C57 | the in-order variant of the AArch64 8-bit `asm` as machine code | block-wise simulation by the code of C54: a checked permutation of independent instructions, plus a lemma on registers loaded in halves and ahead of time; everything about the result follows from C54 |
| C58 | the single-column AArch64 8-bit `asm` as machine code, and the choice of kernel | same invariants as C54 with one column of accumulators, reusing its copy loops and block counting; the stored bytes are those of C54 |
| C59 | C54-C58 together on one memory of bytes: RunPack and RunKernel as relations (registers arbitrary at each `asm`), any list of calls with their tunings | invariant: packed columns and sums hold the specified bytes, stored entries the specified values |
| C60 | control flow of `TrMul.step` without elements (C53) on the byte memory of C59; a step in which RunPack or RunKernel returns performs that call, with any tuning | the calls of every execution are in an order that C59 allows and cover all blocks (`Simd/Calls.lean`, for any element types); then C59 |
| C61 | float packing and kernels of the three x86 paths over an abstract float type with an abstract multiply-add; registers are lane functions, loads and stores checked | kernels by blocks of 8 columns: every store writes part of a destination, disjoint parts compose; then as C52, C53 |
| C62 | C61 and ReferenceMul (C47) over the IEEE arithmetic of `Float/Model.lean`; `Rounding` says what is assumed of rounding, `binary32` is round-to-nearest-even binary32 with or without flushing, for which it is proved | induction over the chain of multiply-adds; clamping does not increase distances; `binary32` by the exponent of the last place |
| C63 | the AArch64 8-bit dot-product `asm` (8x8 blocks) as machine code; `.inst` words decoded by `sdotOf` | as C54: symbolic execution of each block, an invariant of the depth loop with a quarter of the block one step ahead (`Loop`), reuse of the output stages of C54 |
| C64 | the two tuned dot-product `asm` variants as machine code, the choice by tuning | X1: the code of C63 without the unrolled loop, by relabelling blocks; A55ish: block-wise simulation by X1 as in C57, with operands of the next block loaded during the output stage (`Pend`) and the zero point added one block earlier |
| C65 | the one-column dot-product `asm` as machine code, the choice of kernel by shape and tuning | as C58 for 8 rows: `Loop1` with the upper four rows one group ahead, the column stores with the copy loop of C63, then `Result.same` against C64 |
| C66 | the two column-major dot-product packing `asm` statements as machine code, and the loop around them as a relation between memories | as C55, for four columns interleaved by four rows; the two statements differ in blocks, not in what each step stores |
| C67 | the row-major dot-product packing `asm` as machine code, and the loop over groups of four rows around it as a relation between memories | invariant over blocks of 8 columns within a call, then over groups of rows with the sums accumulated in memory |
| C68 | C63-C67 together on one memory of bytes, as C59: RunPack and RunKernel as relations, any list of calls with their tunings | the invariant of C59 with 4x8 blocks; the accumulator is exact, so no operands are excepted |
| C69 | C60 with the calls of C68 | the same invariant over calls and control states |
| C70 | the four AArch64 float kernels as programs of a machine with words of any type, arithmetic arbitrary | loop invariants with the list of levels already added, one for the first quarter of a block and one for the rest; the four programs share all but the depth loop |
| C71 | C70 with the roundings of C62 | the chain of C62 in any order of the levels |
| C72 | the two AArch64 float pack functions as programs of the machine of C70, and the C++ loop around them | loop invariants of rows of four and of the last rows; agreement with the packings of C44 |
| C73 | pack calls and kernel calls on float matrices as relations between memories, one after another | invariant: packed columns and written entries after a prefix of the calls; bounds of C71 carried over |
| C74 | the control flow of C07 with the calls of C73 as steps | invariant of C73 for the calls made so far, each with a tuning from a given set |
| C75 | the tasks of TrMul as threads that produce actions (atomic accesses with their orders, calls with their footprints); an execution is a graph of actions with rf and mo that meets the axioms of the C++ memory model | local invariant of what one task knows; release sequences of the status variables; modification order of the counter; orders of calls that respect happens-before are calls in order as in C52, C60, C68, C73 |
| C76 | the thread that owns a pool and its workers as threads that produce actions: every access to `count_`, `state_` and `task_` with its memory order, marks for Execute and Task::Run, anything else in between | rounds of the counter: the modification order of `count_` splits into uses, in each of which every worker decrements once; a worker's use follows from what it read; marks are the specification |
| C77 | the pool of C76 in an arbitrary program, one call of Execute running the tasks of C75 | the part of an execution that concerns some atomics is an execution (`Verif/Race/Project.lean`, happens-before stays that of the whole); C76 discharges what C75 assumes; statements are about events of the whole program |
| C78 | label stacks, samples as bytes, tree views (`Verif/Prof`); std::sort as a relation | simulation of the stacks by lists of open scopes; the tree of some samples as an inductive relation, carried through AddOther and SortNode |
| C79 | the same | negations by witness; what holds of each |
| C80 | the AArch64 programs; operand and clobber lists (`Neon/Clobber*.lean`) | registers an instruction may change; the lists checked against the programs; for `Kernel8bitNeonDotprod1Col` an invariant over its blocks |
| C81 | `KernelFloat32Neon` as 28 basic blocks (`Arm32/*.lean`) | a machine with 16 vector registers, a stack frame and 32-bit numbers; float arithmetic is arbitrary |
| C82 | `PackFloatColMajorForNeon` for ARM32 as 15 basic blocks, and the loops around it (`Arm32/Pack*.lean`) | pointers to columns beyond the matrix are computed but count as fine; `src_inc` is an operand of 64 bits, of which the statement uses the lower register |
| C83 | `Kernel8bitNeon` for ARM32 as basic blocks (`Arm8/*.lean`) | registers wrap at 2^32; pointers are region and offset, pointers moved out of their region count as fine until used; preloads are left out; the six slots of the stack frame are extra registers; depth is a positive multiple of 16 (the packed depth), depth 0 is `c83_depth0` |
| C84 | `Pack8bitColMajorForNeon4Cols`, `…2Cols` for ARM32 as basic blocks, and the loops of `PackImpl::Run` around them (`Arm8/Pack*.lean`) | as C83; preloads are left out; the row macros are expanded; `memset` of `zerobuf` is one step |
| C85 | `Kernel8bitNeon1Col` for ARM32 as basic blocks, and the choice between it and `Kernel8bitNeon` (`Arm8/Col*.lean`) | as C83 |
| C86 | row-major packing of 8-bit matrices for ARM32, with two and four kernel columns (`Arm8/Row*.lean`) | as C56 |
| C87 | 8-bit multiplication on ARM32: RunPack, MakeKernelParams8bit, choice of kernel, calls in any order (`Arm8/Flow*.lean`) | as C59, C83-C86; the specification of an entry is that of C59 |
| C88 | C60 with the calls of C87 | the same invariant over calls and control states; `Simd/Calls.lean` (and with it C75, C77) has a kernel width for each side |
| C89 | float multiplication on ARM32: RunPack, MakeKernelParamsFloat, kernel, calls in any order (`Arm32/Flow*.lean`) | as C73, C81, C82; `vmla.f32` rounds the product and the sum; `neonOps` (`Arm32/Flush.lean`) flushes denormal operands and results to zero, before rounding, and makes every NaN the default NaN; `vmlaOps` leaves this to an environment |
| C90 | C74 with the calls of C89 | the same invariant over calls and control states; offsets in the destination fit an int because it fits a 32-bit address space |
| C91 | int16 packing for AVX-512 as lane functions on 16-bit elements | pointwise equality, as for C49 |
| C92 | C52 with an int16 RHS on AVX2 and AVX-512: packing of C91 for columns on AVX-512, generic packing otherwise, kernels of C50 with `rhs_scalar_size` 2 | the invariant of C52; padding that C91 leaves wrong is never used |
| C93 | C92 under the block loop and under several threads: control flow of C07 through `Simd/Calls.lean` | the calls of every execution are ordered (`CtlOk`), so the invariant of C92 holds |
| C94 | ruy::Mul on x86 with 8-bit sources: front end of C28–C30 with the kernel layouts of kernel_x86.h, followed by TrMul of C52, C53 | `setup_ok` derives `JobOk` from conditions on the arguments (`UserOk`); specification `entry`, `quantizedEntry` in terms of the arguments |
| C95 | C94 with an 8-bit and an int16 source on AVX2 and AVX-512, followed by TrMul of C92, C93 | as C94; zero points are 0 by validation (`valid_zero`), so the product of zero points never overflows |
| C96 | C94 with float sources on AVX, AVX2 and AVX-512, followed by TrMul of C61 | as C61 and C94; the bias buffer is copied into a longer one where needed; `entry` exchanges factors for row-major destinations because the float type is arbitrary |
| C97 | C62 in terms of the arguments of ruy::Mul, by C96 | as C62 and C96 |
| C98 | the front end of C96 with the layouts of kernel_arm.h, followed by TrMul of C73, C74 on AArch64 | as C73, C74 and C96; the destination is the user's matrix with the memory TrMul leaves |
| C99 | the front end of C96 with the layouts of kernel_arm.h:173-174 (eight columns on the left, four on the right), followed by TrMul of C89, C90 on 32-bit ARM | as C89, C90 and C98 |
| C100 | nothing new: consequences of C62, C97, C98, C99 for the same arguments | as there |
