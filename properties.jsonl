{"id": "C01", "title": "Integer multiplication computes the documented product", "statement": "When ruy::Mul on the portable code paths returns for integer matrices, every destination entry (i,j) equals clamp(dst_zero_point + scale(bias + sum_k (lhs(i,k)-lhs_zero_point)*(rhs(k,j)-rhs_zero_point))), i.e. exactly what ReferenceMul stores, whatever the storage orders, strides, internal block format, zero points, bias, channel dimension and multipliers.", "quantifier": "all matrix shapes, strides, storage orders, contents, zero points, bias vectors, multipliers, clamp bounds and kernel block formats", "why_tests_cant": "The input space (shapes x contents x layouts x parameters) is unbounded; tests sample a handful of shapes with random contents.", "anchors": ["ruy/kernel.h:Kernel::Run", "ruy/pack.h:PackImpl::Run", "ruy/reference_mul.h:ReferenceMul", "ruy/frontend.h:MulFrontEnd", "ruy/create_trmul_params.h:CreateTrMulParams"]}
{"id": "C02", "title": "Internal padding never shows in results", "statement": "Rows, columns and depth added internally to round matrices up to the kernel block never change any destination entry and never cause a destination entry outside the user's rows x cols to be written.", "quantifier": "all shapes, all kernel block formats (including ones that pad the depth), all zero points", "why_tests_cant": "Padding effects depend on the residue of every dimension and on the zero points; only a proof covers all residues for all block formats.", "anchors": ["ruy/pack.h:PackImpl::Run", "ruy/kernel.h:Kernel::Run", "ruy/kernel.h:RunKernelTyped", "ruy/create_trmul_params.h:CreatePackedLayout"]}
{"id": "C03", "title": "Mul writes every destination entry and nothing else", "statement": "After Mul returns, every memory cell of the destination buffer that is not the cell of some entry (i,j) with i<rows, j<cols (e.g. the gap between rows and stride) has its old value, and every entry's cell has been written.", "quantifier": "all destination shapes, strides, storage orders and block decompositions", "why_tests_cant": "A stray write may hit memory the test does not look at, and depends on exact shape/stride/block arithmetic.", "anchors": ["ruy/kernel.h:Kernel::Run", "ruy/mat.h:Offset", "ruy/trmul.cc:TrMul"]}
{"id": "C04", "title": "The result does not depend on threads or scheduling", "statement": "For every number of threads and every interleaving of the worker threads, the destination computed by Mul is the same as the one computed by a single thread.", "quantifier": "all thread counts, all interleavings, all block decompositions", "why_tests_cant": "A test observes a few schedules out of exponentially many.", "anchors": ["ruy/trmul.cc:TrMulTask::Run", "ruy/trmul.cc:TrMul"]}
{"id": "C05", "title": "Each destination block is computed exactly once", "statement": "In a multi-threaded Mul, each block of the destination is computed by exactly one thread, exactly once, in every execution that finishes; in no execution, finished or not, is a block computed twice.", "quantifier": "all thread counts, block counts and interleavings (including unfinished executions)", "why_tests_cant": "Race on the shared block counter; needs all schedules.", "anchors": ["ruy/trmul.cc:TrMulTask::Run", "ruy/trmul.cc:TrMul"]}
{"id": "C06", "title": "Source blocks are packed once and never used before they are packed", "statement": "In every interleaving, each LHS/RHS block is packed by at most one thread, no thread multiplies with a block whose packing has not completed, and a thread that uses a block either packed it itself or synchronised with the thread that did; no two threads ever access the same packed block with one of them writing it.", "quantifier": "all thread counts, interleavings, prepacked/not-prepacked combinations", "why_tests_cant": "Data races show up only under particular schedules and memory orders.", "anchors": ["ruy/trmul.cc:TrMulTask::TryPack", "ruy/trmul.cc:TrMulTask::EnsurePacked"]}
{"id": "C07", "title": "Multi-threaded Mul never deadlocks", "statement": "From every reachable state of a multi-threaded Mul some thread that is not merely spinning can make progress until all blocks are computed, and the number of such progress steps is bounded, so every fair execution finishes.", "quantifier": "all reachable states of all interleavings, all thread and block counts", "why_tests_cant": "Deadlock freedom/termination is a property of all schedules.", "anchors": ["ruy/trmul.cc:TrMulTask::EnsurePacked", "ruy/trmul.cc:TrMulTask::Run"]}
{"id": "C08", "title": "Every traversal order visits each block exactly once", "statement": "For each of the four traversal orders and any grid size and rectangularness, the map from block index to block coordinates is a bijection between 0..NumBlocks-1 and the grid of blocks.", "quantifier": "all block indices, all grid sizes (2^a x 2^b), the four traversal orders", "why_tests_cant": "Index spaces up to 2^30; tests enumerate small grids only.", "anchors": ["ruy/block_map.cc:GetBlockByIndex", "ruy/block_map.cc:DecodeTraversalFractalZ", "ruy/block_map.cc:DecodeTraversalFractalHilbert"]}
{"id": "C09", "title": "Blocks tile the destination", "statement": "For every matrix shape for which a block map is made, the blocks' row (column) ranges are non-empty, aligned to the kernel size, consecutive, start at 0 and end exactly at the (rounded) number of rows (columns); hence each entry belongs to exactly one block.", "quantifier": "all shapes, kernel sizes, thread counts, cache sizes", "why_tests_cant": "Depends on floor/ceil arithmetic over all dimension values and on a heuristic choosing the block size.", "anchors": ["ruy/block_map.cc:MakeBlockMap", "ruy/block_map.cc:GetBlockMatrixCoords"]}
{"id": "C10", "title": "Block-size heuristics are free of undefined behaviour", "statement": "Choosing the block decomposition never overflows an int, shifts out of range or fails an internal check, for every pair of matrices that fits in memory.", "quantifier": "all shapes, element sizes, thread counts and cache sizes", "why_tests_cant": "Overflow occurs only for particular huge shapes that tests cannot allocate.", "anchors": ["ruy/block_map.cc:MakeBlockMap", "ruy/block_map.cc:GetTraversalOrder", "ruy/block_map.cc:GetCacheLocalityScore"]}
{"id": "C11", "title": "Thread pool: Execute runs each task exactly once and then returns", "statement": "In every interleaving, ThreadPool::Execute(n, tasks) returns only after each of the n tasks has been run exactly once to completion, task 0 on the calling thread.", "quantifier": "all n>=1, all interleavings, all histories of previous Execute calls on the pool", "why_tests_cant": "Needs all schedules and all histories.", "anchors": ["ruy/thread_pool.cc:ThreadPool::ExecuteImpl", "ruy/thread_pool.cc:Thread::RevertToReadyState", "ruy/blocking_counter.cc"]}
{"id": "C12", "title": "Thread pool: no lost wake-up", "statement": "No reachable state of the pool has the calling thread asleep waiting for workers that are all asleep or finished, or a worker asleep although work or an exit request was posted to it; some thread can always take a step until Execute (or the pool's destructor) returns.", "quantifier": "all interleavings of worker/main steps including spurious wake-ups and any spin duration, all histories", "why_tests_cant": "Lost wake-ups are schedule-dependent.", "anchors": ["ruy/wait.cc:Wait", "ruy/blocking_counter.cc:BlockingCounter", "ruy/thread_pool.cc:Thread::ChangeStateFromOutsideThread"]}
{"id": "C13", "title": "Thread pool: size is the maximum ever needed", "statement": "After any sequence of Execute calls the pool owns exactly max(task_count)-1 worker threads (0 if none above 1); threads are reused, never recreated, and destroying the pool joins all of them.", "quantifier": "all sequences of Execute calls", "why_tests_cant": "Quantifies over all call histories.", "anchors": ["ruy/thread_pool.cc:ThreadPool::CreateThreads", "ruy/thread_pool.cc:ThreadPool::~ThreadPool"]}
{"id": "C14", "title": "Allocator: live allocations are aligned and disjoint", "statement": "All blocks returned by an Allocator since the last FreeAll are 64-byte aligned, lie inside memory obtained from the system and not yet returned, and do not overlap each other.", "quantifier": "all sequences of allocation / FreeAll calls and all sizes, any system allocator returning aligned fresh blocks", "why_tests_cant": "Quantifies over histories and sizes.", "anchors": ["ruy/allocator.cc:Allocator::AllocateBytes", "ruy/allocator.cc:Allocator::AllocateFast", "ruy/allocator.cc:Allocator::FreeAll"]}
{"id": "C15", "title": "Allocator: repeating a workload needs no system allocation", "statement": "After a sequence of allocations followed by FreeAll, repeating a sequence of allocations with the same or smaller total rounded size is served without any system allocation; and FreeAll followed by nothing leaves at most one system block held, all released on destruction.", "quantifier": "all histories", "why_tests_cant": "Quantifies over histories.", "anchors": ["ruy/allocator.cc:Allocator::FreeAll", "ruy/allocator.cc:Allocator::AllocateFast"]}
{"id": "C16", "title": "Allocator: anti-aliasing placement", "statement": "AllocateBytesAvoidingAliasingWith returns a block of the requested size inside memory it owns whose address differs from the address to avoid by at least 256 modulo 1024 in both directions.", "quantifier": "all addresses, all sizes", "why_tests_cant": "Address-dependent (depends on where the OS maps memory), modulo-2^32 arithmetic.", "anchors": ["ruy/allocator.cc:Allocator::AllocateBytesAvoidingAliasingWith"]}
{"id": "C17", "title": "Allocator: system allocation failure is reported, never a bogus pointer", "statement": "If the system allocator fails, allocation requests return null or valid memory, never a non-null pointer that is not backed by memory.", "quantifier": "all histories and all patterns of system allocation failures", "why_tests_cant": "Requires failure injection at every point of every history.", "anchors": ["ruy/allocator.cc:Allocator::FreeAll", "ruy/allocator.cc:Allocator::AllocateFast"]}
{"id": "C18", "title": "Prepacked cache: a hit returns the packing of the requested matrix", "statement": "A matrix served from the prepacked cache holds exactly the data that packing the requested matrix now would produce, provided the user did not change the contents of cached matrices: Mul with caching gives the same result as Mul without caching.", "quantifier": "all histories of Mul calls with caching, all matrices (layout, data pointer, zero point)", "why_tests_cant": "A collision of cache keys between different matrices needs a particular history.", "anchors": ["ruy/prepacked_cache.h:PrepackedCache::Key", "ruy/prepacked_cache.cc:PrepackedCache::Get", "ruy/prepare_packed_matrices.cc:PreparePackedMatrices"]}
{"id": "C19", "title": "Prepacked cache: size accounting and cap", "statement": "The reported BuffersBytes always equals the number of bytes of buffers held, and after each request it is at most the configured maximum unless the one just-inserted matrix alone exceeds it.", "quantifier": "all request histories, all element types, all caps", "why_tests_cant": "Drift accumulates over histories of insertions and ejections.", "anchors": ["ruy/prepacked_cache.cc:PrepackedCache::Get", "ruy/prepacked_cache.cc:PrepackedCache::EjectOne", "ruy/prepacked_cache.cc:AllocateBuffers"]}
{"id": "C20", "title": "Prepacked cache: ejection is least-recently-used", "statement": "Whenever matrices are ejected, they are exactly the least recently requested ones, as few as needed to make room; a requested matrix is present right after the request.", "quantifier": "all request histories", "why_tests_cant": "Quantifies over histories.", "anchors": ["ruy/prepacked_cache.cc:PrepackedCache::EjectOne", "ruy/prepacked_cache.cc:PrepackedCache::EjectUntilRoomFor"]}
{"id": "C21", "title": "Prepacked cache: buffers used by a Mul stay alive during that Mul", "statement": "During a Mul, the packed LHS and RHS buffers obtained from the cache are not freed before the multiplication has finished.", "quantifier": "all cache states, caps and pairs of matrices", "why_tests_cant": "Needs the cache to be in a particular nearly-full state.", "anchors": ["ruy/prepare_packed_matrices.cc:PreparePackedMatrices", "ruy/prepacked_cache.cc:PrepackedCache::Get"]}
{"id": "C22", "title": "Prepacked cache: no leak, no double free", "statement": "Over any history each buffer allocated by the cache is freed at most once, buffers of present entries are never freed, and destroying or clearing the cache frees all of them.", "quantifier": "all request histories", "why_tests_cant": "Quantifies over histories.", "anchors": ["ruy/prepacked_cache.cc:PrepackedCache::~PrepackedCache", "ruy/prepacked_cache.cc:PrepackedCache::EjectOne"]}
{"id": "C23", "title": "Caching policy is honoured", "statement": "A matrix is cached if and only if its CachePolicy says so: never for kNeverCache, always for kAlwaysCache, and for the two speedup policies exactly when the other side is at most one (respectively four) kernel-widths wide; nothing is cached in the other cases.", "quantifier": "all policies and shapes", "why_tests_cant": "All shapes/kernel widths; tests check a few.", "anchors": ["ruy/prepare_packed_matrices.cc:ShouldCache", "ruy/prepare_packed_matrices.cc:PreparePackedMatrices"]}
{"id": "C24", "title": "Quantized multiplier is a single correctly rounded scaling", "statement": "The reference multiplier returns floor(x*m*2^(shift-31) + 1/2) (round half up) for every accumulator x, multiplier m>=0 and shift in the documented range whenever that value fits in int32; it always fits when shift<=0; the result is monotone in x.", "quantifier": "all int32 accumulators and multipliers, all shifts", "why_tests_cant": "2^70 input combinations.", "anchors": ["ruy/apply_multiplier.cc:MultiplyByQuantizedMultiplier"]}
{"id": "C25", "title": "ARM NEON multiplier sequence is bit-exact with the reference", "statement": "The shift / SQDMULH / rounding-shift sequence used by the NEON kernels yields, for every accumulator, multiplier and exponent, the same value as the reference multiplier.", "quantifier": "all int32 accumulators, multipliers, exponents", "why_tests_cant": "2^70 input combinations.", "anchors": ["ruy/kernel_arm64.cc:Kernel8bitNeon", "ruy/apply_multiplier.cc:MultiplyByQuantizedMultiplier", "ruy/mul_params.h:MulParams"]}
{"id": "C26", "title": "x86 multiplier sequences agree with each other and are within 1 of the reference", "statement": "The AVX, AVX2 and AVX-512 multiplier sequences yield identical values, and differ from the reference multiplier by at most 1; they are equal to it whenever the exponent is non-negative.", "quantifier": "all int32 accumulators, multipliers, exponents", "why_tests_cant": "2^70 input combinations.", "anchors": ["ruy/kernel_avx2_fma.cc:Kernel8bitAvx2Impl", "ruy/kernel_avx512.cc:Kernel8bitAvx512", "ruy/kernel_avx.cc:Kernel8bitAvxImpl", "ruy/test.h"]}
{"id": "C27", "title": "Default multiplier means no scaling", "statement": "With default MulParams and a narrow integer destination, the effective multiplier is 1: the accumulators are stored unscaled.", "quantifier": "all accumulators", "why_tests_cant": "Documentation claim about all inputs.", "anchors": ["ruy/mul_params.h:MulParams", "ruy/mul_params.h:MulParamsStorage"]}
{"id": "C28", "title": "Results respect the clamp bounds", "statement": "Every stored destination value lies in [clamp_min, clamp_max] whenever clamp_min<=clamp_max and both are destination values, and the final narrowing to the destination type never changes the value.", "quantifier": "all accumulators, zero points, clamp bounds, destination types", "why_tests_cant": "Unbounded inputs.", "anchors": ["ruy/kernel.h:Kernel::Run", "ruy/reference_mul.h:ReferenceMul"]}
{"id": "C29", "title": "Per-channel buffers are never over-read and reallocation is transparent", "statement": "For every user-provided bias/multiplier buffer of the documented capacity, kernels only read indices within the user's capacity or within the internal replacement; the replacement holds the user's values followed by zeros, results are unchanged, and the reallocation advisory is raised exactly when a replacement is made.", "quantifier": "all channel counts, capacity roundings, block formats", "why_tests_cant": "Over-reads depend on residues of sizes.", "anchors": ["ruy/create_trmul_params.h:EnsurePerChannelBuffersLargeEnough", "ruy/create_trmul_params.h:EnsurePerChannelBuffersLargeEnoughImpl"]}
{"id": "C30", "title": "Row-major destinations are handled by an exact transposition", "statement": "Mul with a row-major destination stores the same values as Mul with the column-major destination of the same product, including bias and per-channel multipliers applied along the same user-visible channel dimension.", "quantifier": "all shapes, layouts, channel dimensions", "why_tests_cant": "Unbounded inputs.", "anchors": ["ruy/create_trmul_params.h:CreateTrMulParams", "ruy/mat.h:Transpose"]}
{"id": "C31", "title": "Unsigned sources packed as signed give the same result", "statement": "Re-encoding uint8 sources as int8 (subtracting 128 from data and zero point) while packing changes no destination entry, and the packed encoding via XOR with 0x80 equals subtracting 128.", "quantifier": "all uint8 contents and zero points", "why_tests_cant": "All contents.", "anchors": ["ruy/pack_common.h:Pack", "ruy/pack_x86.h:PackImpl", "ruy/create_trmul_params.h:CreatePackedMatrix"]}
{"id": "C32", "title": "Matrix addressing is injective and in bounds", "statement": "Element offsets of a plain or packed matrix are pairwise distinct for distinct (row,col), lie inside the buffer that is allocated for the matrix, and for packed matrices fill it completely.", "quantifier": "all shapes, strides, orders and kernel block formats", "why_tests_cant": "All shapes.", "anchors": ["ruy/mat.h:Offset", "ruy/mat.h:FlatSize", "ruy/matrix.h:Offset"]}
{"id": "C33", "title": "The selected code path is compiled, enabled and the best", "statement": "Each Mul runs on exactly one code path which is both compiled in and enabled on the context, and no enabled compiled path ranks higher.", "quantifier": "all compiled-path sets, all enabled-path settings including the RUY_PATHS environment variable and CPU feature combinations", "why_tests_cant": "All subsets / configurations / environments.", "anchors": ["ruy/ctx.cc:Ctx::SelectPath", "ruy/ctx.cc:Ctx::GetRuntimeEnabledPaths", "ruy/path.h:GetMostSignificantPath"]}
{"id": "C34", "title": "Runtime path setting is sticky and never loses the portable path", "statement": "After set_runtime_enabled_paths(p), p not none, the context reports exactly p plus the portable paths until changed; setting none restores detection; repeated queries give the same answer.", "quantifier": "all call histories and environments", "why_tests_cant": "Histories.", "anchors": ["ruy/ctx.cc:Ctx::SetRuntimeEnabledPaths", "ruy/ctx.cc:Ctx::GetRuntimeEnabledPaths", "ruy/context.cc:Context::get_runtime_enabled_paths"]}
{"id": "C35", "title": "Path dispatch binds the selected path", "statement": "For any compiled-path set and any selected path in it, the internal path search instantiates the kernel and packing code of exactly that path.", "quantifier": "all compiled-path sets and selected paths", "why_tests_cant": "All subsets.", "anchors": ["ruy/create_trmul_params.h:PathSearchCountdown"]}
{"id": "C36", "title": "Thread count is between 1 and max_num_threads", "statement": "Mul uses at least one and at most max_num_threads threads, never more than the number of blocks, and one thread for small problems.", "quantifier": "all shapes, settings of max_num_threads", "why_tests_cant": "All shapes and settings.", "anchors": ["ruy/trmul.cc:GetTentativeThreadCount", "ruy/trmul.cc:TrMul"]}
{"id": "C37", "title": "The simple loop computes what the block loop computes", "statement": "When Mul takes the single-threaded shortcut, the destination equals the one of the general block-wise algorithm; the shortcut is only taken when the block-wise algorithm would traverse linearly.", "quantifier": "all shapes, cache sizes, kernel sizes", "why_tests_cant": "All shapes.", "anchors": ["ruy/trmul.cc:TrMul", "ruy/trmul.cc:GetUseSimpleLoop", "ruy/block_map.cc:IsObviouslyLinearTraversal"]}
{"id": "C38", "title": "Empty matrices are rejected cleanly", "statement": "A Mul where some dimension is zero either completes with the destination untouched or stops with a check failure; it never invokes undefined behaviour.", "quantifier": "all shapes with a zero dimension, all strategies", "why_tests_cant": "Combination of degenerate shapes with strategy settings and heuristics.", "anchors": ["ruy/trmul.cc:TrMul", "ruy/prepare_packed_matrices.cc:PreparePackedMatrices"]}
{"id": "C39", "title": "MulParams setters: per-channel and uniform multipliers exclude each other", "statement": "After any sequence of setter calls, the getters report the values of the last mode set, values of the other mode read as null/zero, and no stale value from before a mode switch is ever visible.", "quantifier": "all sequences of setter calls", "why_tests_cant": "Histories.", "anchors": ["ruy/mul_params.h:MulParams"]}
{"id": "C40", "title": "Tuning resolution is cached for a bounded time", "statement": "Resolve returns an explicitly set tuning unconditionally; otherwise the returned tuning was measured at most 250ms before the call.", "quantifier": "all call histories and clocks that do not go backwards", "why_tests_cant": "Time-dependent histories.", "anchors": ["ruy/tune.cc:TuningResolver::Resolve"]}
{"id": "C41", "title": "CPU cache sizes used by heuristics are positive and conservative", "statement": "The cache sizes reported are positive, no larger than those of any core, computed once, and the local one does not exceed the last-level one.", "quantifier": "all CPU topologies as reported by the OS library", "why_tests_cant": "Needs all hardware topologies.", "anchors": ["ruy/cpuinfo.cc:QueryCacheParams", "ruy/cpuinfo.cc:CpuInfo::EnsureInitialized"]}
{"id": "C42", "title": "Floating-point environment is restored", "statement": "After Mul returns on a thread, that thread's floating-point control register is what it was before, for any prior value; during the call denormals are flushed.", "quantifier": "all control-register values, nesting", "why_tests_cant": "All register values.", "anchors": ["ruy/denormal.cc:ScopedSuppressDenormals"]}
{"id": "C43", "title": "Power-of-two helpers are exact", "statement": "floor/ceil log2 and round-up/round-down to a power of two (or multiple of one) return the mathematically exact result for every representable argument for which that result is representable.", "quantifier": "all int32/int64 values", "why_tests_cant": "2^64 values.", "anchors": ["ruy/size_util.h"]}
{"id": "C44", "title": "Fast float packing equals generic packing", "statement": "The memcpy-based packing of row-major float sources yields bit-for-bit the same packed data as the generic packing, for every column range.", "quantifier": "all shapes, strides, column ranges", "why_tests_cant": "All shapes.", "anchors": ["ruy/pack_common.h:MemcpyRowMajorFloatPackImpl"]}
{"id": "C45", "title": "Packing block by block equals packing at once", "statement": "Packing any partition of the columns in any order produces the same packed matrix and sums as packing all columns at once; each pack touches only its own columns.", "quantifier": "all shapes, partitions and orders", "why_tests_cant": "All partitions.", "anchors": ["ruy/pack.h:PackImpl::Run", "ruy/trmul_params.h:TrMulParams::RunPack"]}
{"id": "C46", "title": "Performance advisories describe the last Mul only", "statement": "After a Mul, exactly the advisories raised during that Mul are reported; advisories from earlier calls are cleared.", "quantifier": "all histories", "why_tests_cant": "Histories.", "anchors": ["ruy/frontend.h:MulFrontEnd", "ruy/performance_advisory.h", "ruy/ctx.h"]}
{"id": "C47", "title": "Float multiplication on the portable path is bit-identical to ReferenceMul", "statement": "For floating-point matrices the portable path performs exactly the same sequence of roundings as ReferenceMul, hence gives bit-identical results, for every arithmetic (rounding mode, NaN handling).", "quantifier": "all float contents and any interpretation of + and *", "why_tests_cant": "All contents; floating-point is not associative so sampling proves nothing.", "anchors": ["ruy/kernel.h:Kernel::Run", "ruy/reference_mul.h:ReferenceMul", "ruy/pack.h:PackImpl::Run"]}
{"id": "C48", "title": "NEON saturating narrowing equals zero-point addition plus clamp", "statement": "The saturating narrow / saturating add / saturating narrow / min / max sequence used to store 8-bit results on NEON gives exactly clamp(x + dst_zero_point) for every int32 x.", "quantifier": "all int32 x, all 8-bit zero points and clamp bounds", "why_tests_cant": "2^56 combinations.", "anchors": ["ruy/kernel_arm64.cc:Kernel8bitNeon"]}
{"id": "C49", "title": "SIMD packing of 8-bit sources equals generic packing", "statement": "The XOR/shuffle/zero-buffer based x86 packing produces the same packed bytes and column sums as the portable definition for all sources.", "quantifier": "all contents, residues of rows and columns, zero points", "why_tests_cant": "All contents and residues.", "anchors": ["ruy/pack_avx2_fma.cc:Pack8bitColMajorForAvx2", "ruy/pack_x86.h"]}
{"id": "C50", "title": "SIMD inner product lanes compute the dot products", "statement": "The shuffles and multiply-adds of the AVX2 8-bit kernel accumulate, in lane i of accumulator j, exactly the sum of products of packed LHS column i and packed RHS column j, modulo 2^32.", "quantifier": "all packed contents and depths", "why_tests_cant": "All contents.", "anchors": ["ruy/kernel_avx2_fma.cc:Kernel8bitAvx2Impl"]}
{"id": "C51", "title": "Running out of memory stops Mul in a defined way", "statement": "If the system allocator cannot provide the memory for a packed matrix, Mul stops with a failed check; it never dereferences the null pointer.", "quantifier": "all calls of Mul, all cache policies, all failure patterns of the system allocator", "why_tests_cant": "Needs allocation failures at particular moments.", "anchors": ["ruy/prepare_packed_matrices.cc:PreparePackedMatrices", "ruy/prepacked_cache.cc:PrepackedCache::AllocateBuffers", "ruy/system_aligned_alloc.cc:SystemAlignedAlloc"]}
{"id": "C52", "title": "8-bit x86 multiplication computes the product end to end", "statement": "On the AVX, AVX2 and AVX-512 paths, packing the 8-bit sources block by block and running the 8-bit kernel on blocks, in any order that packs the columns of a block before multiplying it, stores in every entry of the processed blocks the bias plus the exact sum of products of offset source elements, modulo 2^32, put through the output stage, and changes nothing else in the destination.", "quantifier": "all sources (types, storage orders, strides, contents, zero points), all sequences of pack and kernel calls, all block sizes", "why_tests_cant": "All sequences of calls and all contents; tests see the schedules that happen on their machine.", "anchors": ["ruy/trmul.cc:TrMul", "ruy/pack_x86.h", "ruy/pack_avx2_fma.cc", "ruy/kernel_x86.h:Kernel", "ruy/kernel_avx2_fma.cc:Kernel8bitAvx2Impl"]}
{"id": "C53", "title": "8-bit x86 multiplication gives the product under every thread schedule", "statement": "On the AVX, AVX2 and AVX-512 paths, TrMul with 8-bit sources (the simple loop, the single-threaded block loop, or any number of threads under any schedule, with any block map made for the packed matrices and with any side prepacked) never faults, returns under every fair schedule, and leaves the same destination: the bias plus the exact sum of products of offset source elements, modulo 2^32, put through the output stage, in every entry, nothing else changed.", "quantifier": "all sources, block maps, thread counts, schedules and choices of prepacked sides", "why_tests_cant": "All interleavings; tests see the schedules that happen on their machine.", "anchors": ["ruy/trmul.cc:TrMulTask", "ruy/trmul.cc:TrMul", "ruy/pack_x86.h", "ruy/kernel_x86.h:Kernel"]}
{"id": "C54", "title": "The AArch64 8-bit kernel computes the product", "statement": "The assembly code of Kernel8bitNeon stops, accesses only bytes of the buffers it is given, stores in every entry of the blocks it is called for that lies inside the destination the bias plus the exact sum of products of the offset packed entries, modulo 2^32, put through the output stage of the destination type (also for blocks that stick out of the destination), and changes no other byte of the destination.", "quantifier": "all packed contents, depths, block ranges, strides, zero points, biases, multipliers, clamping bounds, the four destination types, all initial register contents", "why_tests_cant": "The contents and the shapes are unbounded, and the assembly runs only on one architecture.", "anchors": ["ruy/kernel_arm64.cc:Kernel8bitNeon"]}
{"id": "C55", "title": "AArch64 packing of column-major 8-bit matrices", "statement": "On AArch64, packing columns of a column-major int8 or uint8 matrix (PackImpl::Run with Pack8bitColMajorForNeon or Pack8bitColMajorForNeonA55ish) ends, accesses only bytes of the source, of the packed matrix and of the sums, stores the source elements converted to int8 where the packed layout says, the converted zero point in rows and columns beyond the source, and the sums of the packed columns; it changes nothing else and agrees with the portable packing code.", "quantifier": "all sources (sizes, strides, contents, zero points, int8 and uint8), all column ranges, with and without sums, both tunings, all initial register contents", "why_tests_cant": "All shapes and contents; the assembly runs on one architecture only.", "anchors": ["ruy/pack_arm.cc:Pack8bitColMajorForNeon", "ruy/pack_arm.cc:Pack8bitColMajorForNeonA55ish", "ruy/pack_arm.h:PackImpl::Run"]}
{"id": "C56", "title": "AArch64 packing of row-major 8-bit matrices", "statement": "On AArch64, packing columns of a row-major int8 or uint8 matrix (PackImpl::Run with Pack8bitRowMajorForNeon) returns, accesses only bytes of the source, of the packed matrix and of the sums, stores in source columns the elements converted to int8 (and the zero point of the packed matrix in rows beyond the source) where the packed layout says, and the sums of the packed columns; it changes nothing else. Source columns agree with the portable packing code and with packing the same matrix from column-major storage.", "quantifier": "all sources (sizes, strides, contents, zero points, int8 and uint8), all column ranges that start at a multiple of four, all initial contents of memory", "why_tests_cant": "All shapes and contents; three different code paths for groups of eight columns, single columns and columns beyond the source, at every alignment.", "anchors": ["ruy/pack_arm.cc:Pack8bitRowMajorForNeon", "ruy/pack_arm.h:PackImpl::Run"]}
{"id": "C57", "title": "The AArch64 8-bit kernel for in-order cores does the same", "statement": "The assembly code of Kernel8bitNeonA55ish, started in any state in which Kernel8bitNeon stops without undefined behaviour, stops, accesses only bytes of the buffers it is given, and leaves every byte of memory as Kernel8bitNeon does; hence the choice by tuning in Kernel::Run has no influence on the result.", "quantifier": "all parameters and packed contents, depths, block ranges, strides, the four destination types, all initial register contents, both tunings", "why_tests_cant": "The two kernels schedule loads differently (halves, across the output stage, reusing parameter registers); tests cover few shapes, contents and residues, and run on one core type.", "anchors": ["ruy/kernel_arm64.cc:Kernel8bitNeonA55ish", "ruy/kernel_arm.h:Kernel::Run"]}
{"id": "C58", "title": "The AArch64 8-bit kernel for a single column, and the choice of kernel", "statement": "The assembly code of Kernel8bitNeon1Col, called as Kernel::Run calls it (one destination column, channels are rows), stops, accesses only bytes of the buffers it is given, and stores in every row of the call inside the destination the output-stage value of bias + sum of products corrected for zero points, changing nothing else; it leaves the same bytes as Kernel8bitNeon and Kernel8bitNeonA55ish would. Hence whichever of the three kernels Kernel::Run chooses, the result is the specified one.", "quantifier": "all parameters and packed contents, depths, row ranges, strides, the four destination types, all initial register contents, all combinations of column count, channel dimension and tuning", "why_tests_cant": "The kernel is a separate 650-line schedule that skips three quarters of each packed RHS block by pointer arithmetic; a wrong skip, tail or scratch-buffer copy shows only for particular depths, row residues and types.", "anchors": ["ruy/kernel_arm64.cc:Kernel8bitNeon1Col", "ruy/kernel_arm.h:Kernel::Run"]}
{"id": "C59", "title": "AArch64 8-bit multiplication, packing and kernels together", "statement": "On the path kNeon, pack calls and kernel calls issued in any order that packs the columns of a block before it is multiplied, with any block sizes and with either tuning for each call, all stop without undefined behaviour and without a failed check; afterwards every destination entry of a kernel block holds the output-stage value of bias + inner product of the offset sources modulo 2^32 (for int32 the exact entry if it fits, otherwise the exactly rounded, offset and clamped one), and no other byte of the destination and no input has changed. The result depends neither on order, block sizes and tunings nor on previous contents of the packed buffers.", "quantifier": "all sizes, strides, storage orders, int8/uint8 sources, zero points, four destination types, biases, per-channel or uniform multipliers, channel dimensions, all source contents, all lists of calls, all initial contents of registers, stack and packed buffers", "why_tests_cant": "Correctness depends on the agreement of two packing functions with two tunings and three kernels on a byte layout, on padding, and on sums; tests sample a few shapes, contents and one tuning per device.", "anchors": ["ruy/pack_arm.h:PackImpl::Run", "ruy/kernel_arm.h:Kernel::Run", "ruy/kernel_common.h:MakeKernelParams8bit", "ruy/trmul.cc:TrMul", "ruy/validate.h:ValidateZeroPoint"]}
{"id": "C60", "title": "AArch64 8-bit multiplication by one or several threads", "statement": "On the path kNeon, TrMul run as a single-threaded block loop or by any number of threads under any schedule, with any block map that MakeBlockMap produces, any sides prepacked and either tuning for each call, performs no step that is undefined or fails a check. When all tasks have returned (which they do under every fair schedule), every destination entry has the value that the simple loop stores (C59), no other byte of the destination and no input has changed, and the destination does not depend on block map, number of threads, schedule, tunings, prepacking or previous contents of the packed buffers.", "quantifier": "all sizes, storage orders, int8/uint8 sources, zero points, destination types and multiplier parameters as in C59, all block maps, all numbers of threads, all schedules, all choices of tuning per call, all memory contents", "why_tests_cant": "The set of interleavings of threads that take blocks from a counter and pack for each other is infinite, and threads may have different tunings; a test sees a few interleavings on one device.", "anchors": ["ruy/trmul.cc:TrMulTask::Run", "ruy/trmul.cc:TryPack", "ruy/trmul.cc:TrMul", "ruy/pack_arm.h:PackImpl::Run", "ruy/kernel_arm.h:Kernel::Run"]}
{"id": "C61", "title": "Multiplication of float matrices on the x86 paths", "statement": "On the paths kAvx, kAvx2Fma and kAvx512, float packing (column-major by register transposition, row-major by memcpy) and kernels (whole blocks, partial blocks, single column), called by TrMul's simple loop, its single-threaded block loop or any number of threads under any schedule, access only elements of their buffers and store in every destination entry the bias followed by one multiply-add per depth index in increasing order, clamped by minps/maxps; nothing else in the destination changes. The result depends only on sources, parameters and the multiply-add: not on the path, the block map, the threads, the schedule, prepacking or previous contents of packed or trailing buffers. Integer inputs whose products and partial sums are exact give the exact result.", "quantifier": "all float types and operations, all sizes, storage orders, strides, bias and channel dimensions, all block maps, thread counts and schedules, all memory contents", "why_tests_cant": "Tests compare floats with tolerances, so a wrong order of additions, a lane that is accumulated twice or a padding lane that leaks shows only as noise; residues modulo the kernel width and the depth multiply the cases.", "anchors": ["ruy/kernel_x86.h:KernelFloatAvxCommon", "ruy/kernel_x86.h:KernelFloatAvxCommonSingleCol", "ruy/kernel_avx512.cc:KernelFloatAvx512", "ruy/kernel_avx512.cc:KernelFloatAvx512SingleCol", "ruy/pack_x86.h:PackFloatColMajorForAvxCommonPacker", "ruy/pack_avx512.cc:PackFloatColMajorForAvx512", "ruy/kernel_common.h:MakeKernelParamsFloat"]}
{"id": "C62", "title": "Float results are close to the exact ones", "statement": "Let S be the sum of the magnitudes of the bias and of all products for a destination entry. On the x86 float paths, with sources, bias and clamp bounds that are not NaN and no overflow, every entry is a finite number whose distance to the exact, clamped result is at most ((1+u)^n - 1) S for fused multiply-adds and ((1+u)^(n+1) - 1) S otherwise (n the depth, u the relative rounding error), plus a multiple of the underflow threshold; ReferenceMul and the portable path are within ((1+u)^(n+2) - 1) S. For IEEE binary32 with rounding to nearest, with or without flushing of tiny results, this is at most (n+1) 2^-23 S, and x86 paths and ReferenceMul differ by at most (2n+3) 2^-23 S. Integers whose products and partial sums are at most 2^24 are multiplied exactly.", "quantifier": "all rounding functions with the stated error, all matrices of finite numbers, all depths (below 2^23 for the binary32 form), strides, biases and clamp bounds, all execution orders of C61", "why_tests_cant": "Tests compare with a tolerance chosen by experiment on random values; they show neither that the tolerance holds for all inputs nor that an error within it is rounding.", "anchors": ["ruy/kernel_x86.h:KernelFloatAvxCommon", "ruy/kernel_avx512.cc:KernelFloatAvx512", "ruy/reference_mul.h:ReferenceMul", "ruy/kernel.h:Kernel", "ruy/test.h:Agree"]}
{"id": "C63", "title": "The AArch64 8-bit dot-product kernel computes the product", "statement": "The assembly code of Kernel8bitNeonDotprod stops, accesses only bytes of the buffers it is given, stores in every entry of the 8x8 blocks it is called for that lies inside the destination the bias plus the exact sum of products of the offset packed entries, modulo 2^32, put through the output stage of the destination type (also for blocks that stick out of the destination), and changes no other byte of the destination. There is no exception for operands of -128. Its instructions given as numbers (.inst) are the SDOT instructions named in their comments.", "quantifier": "all packed contents, depths (multiples of 4, at least 4), block ranges, strides, zero points, biases, multipliers, clamping bounds, the four destination types, all initial register contents", "why_tests_cant": "The contents and the shapes are unbounded; the loop over 16 levels, its remainder, the preloading across blocks and partial stores interact; the code runs only on ARMv8.2 processors.", "anchors": ["ruy/kernel_arm64.cc:Kernel8bitNeonDotprod"]}
{"id": "C64", "title": "The tuned AArch64 dot-product kernels compute the same product", "statement": "The assembly code of Kernel8bitNeonDotprodX1 and of Kernel8bitNeonDotprodA55ish stops, accesses only bytes of the buffers it is given, stores in every entry of its 8x8 blocks that lies inside the destination the bias plus the exact sum of products of the offset packed entries, modulo 2^32, put through the output stage of the destination type, and changes no other byte of the destination. Kernel8bitNeonDotprodA55ish leaves every byte of memory as Kernel8bitNeonDotprodX1 does. No byte of the destination depends on the tuning (kAuto, kGeneric, kA55ish, kX1) by which Kernel::Run chooses the kernel.", "quantifier": "all packed contents, depths (multiples of 4, at least 4), block ranges, strides, zero points, biases, multipliers, clamping bounds, the four destination types, all initial register contents, all tunings", "why_tests_cant": "Contents and shapes are unbounded; the in-order variant loads operands in halves through general registers, keeps loads pending across the output stage and was scheduled by hand; which kernel runs depends on the processor model.", "anchors": ["ruy/kernel_arm64.cc:Kernel8bitNeonDotprodX1", "ruy/kernel_arm64.cc:Kernel8bitNeonDotprodA55ish", "ruy/kernel_arm.h:Kernel"]}
{"id": "C65", "title": "The AArch64 one-column dot-product kernel computes the same product", "statement": "The assembly code of Kernel8bitNeonDotprod1Col, which Kernel::Run calls for destinations of one column whose channel dimension is the row, stops, accesses only bytes of the buffers it is given, stores in every row of its blocks that lies inside the destination the bias plus the exact sum of products of the offset packed entries, modulo 2^32, put through the output stage of the destination type, and changes no other byte of the destination. It leaves the same bytes in every buffer but the temporary one as the 8x8 kernels of every tuning; so whichever of the four dot-product kernels Kernel::Run chooses, the result is the specified one.", "quantifier": "all packed contents, depths (multiples of 4, at least 4), row ranges, strides, zero points, biases, multipliers, clamping bounds, the four destination types, all initial register contents, all tunings", "why_tests_cant": "Contents and shapes are unbounded; the kernel loads half registers, preloads across blocks and has its own partial stores; it runs only for matrix times vector on ARMv8.2 processors.", "anchors": ["ruy/kernel_arm64.cc:Kernel8bitNeonDotprod1Col", "ruy/kernel_arm.h:Kernel"]}
{"id": "C66", "title": "AArch64 dot-product packing of column-major 8-bit matrices", "statement": "Packing columns of a column-major int8 or uint8 matrix for the dot-product kernels (PackImpl::Run with Pack8bitColMajorForNeonDotprod or Pack8bitColMajorForNeonDotprodA55ish) ends, accesses only bytes of the source, of the packed matrix and of the sums, stores the source elements converted to int8 where the 4x8 packed layout says, the converted zero point in rows and columns beyond the source, and the sums of the packed columns; it changes nothing else, does not depend on the tuning and agrees with the portable packing code.", "quantifier": "all sources (sizes, strides, contents, zero points, int8 and uint8), all column ranges, with and without sums, both tunings, all initial register contents", "why_tests_cant": "All shapes and contents; the assembly needs a processor with dot-product instructions, and each processor runs only one of the two variants.", "anchors": ["ruy/pack_arm.cc:Pack8bitColMajorForNeonDotprod", "ruy/pack_arm.cc:Pack8bitColMajorForNeonDotprodA55ish", "ruy/pack_arm.h:PackImpl::Run"]}
{"id": "C67", "title": "AArch64 dot-product packing of row-major 8-bit matrices", "statement": "Packing columns of a row-major int8 or uint8 matrix for the dot-product kernels (PackImpl::Run with Pack8bitRowMajorForNeonDotprod) ends, accesses only bytes of the source, of the packed matrix and of the sums, stores the source elements converted to int8 where the 4x8 packed layout says, the converted zero point in rows and columns beyond the source, and the sums of the packed columns; it changes nothing else, agrees with the portable packing code, and leaves the same packed matrix as packing a column-major matrix with the same elements.", "quantifier": "all sources (sizes, strides, contents, zero points, int8 and uint8), all column ranges, all initial register contents", "why_tests_cant": "All shapes and contents; the assembly needs a processor with dot-product instructions; sums are accumulated in memory over many calls of the asm statement.", "anchors": ["ruy/pack_arm.cc:Pack8bitRowMajorForNeonDotprod", "ruy/pack_arm.h:PackImpl::Run"]}
{"id": "C68", "title": "8-bit multiplication on the path kNeonDotprod, end to end on bytes", "statement": "On the AArch64 path kNeonDotprod, calls of RunPack and RunKernel in any order that packs columns before they are multiplied end without undefined behaviour or failed checks and store in every entry of the multiplied blocks the exact entry (bias plus inner product of the offset operands) modulo 2^32, put through the output stage; nothing else in the destination or the inputs changes. The result does not depend on the order of the calls, on the blocks, on the tuning of each call or on what was in the packed buffers. For int32 destinations it is the exact entry if that fits; for others the exactly rounded and clamped entry if accumulator and shift do not overflow. Wherever kNeon loses no bits both paths leave the same destination.", "quantifier": "all shapes, strides, orders, contents, zero points, int8 and uint8 operands, all four destination types, all multiplication parameters, all lists of calls, all tunings, all register contents", "why_tests_cant": "All inputs and call orders; a processor runs one tuning; the two paths differ only on rare inputs.", "anchors": ["ruy/kernel_arm.h:Kernel", "ruy/kernel_common.h:MakeKernelParams8bit", "ruy/pack.h:RunPack", "ruy/trmul.cc:TrMul"]}
{"id": "C69", "title": "Threads on the path kNeonDotprod, on bytes", "statement": "On the AArch64 path kNeonDotprod, TrMul by one thread (simple loop or block loop) or by several threads, with or without prepacked sides, never fails, and under a fair schedule all tasks return; then every entry of the destination holds the exact entry modulo 2^32 put through the output stage, and nothing else has changed. The result is the same for all block maps, numbers of threads, schedules and tunings of single calls.", "quantifier": "all multiplications as in C68, all block maps, all thread counts, all schedules, all tunings of each call, all prepacked sides", "why_tests_cant": "All schedules; threads on different cores can have different tunings within one multiplication, which tests on one processor do not exercise.", "anchors": ["ruy/trmul.cc:TrMulTask", "ruy/trmul.cc:TrMul", "ruy/tune.cc:TuningResolver::Resolve"]}
{"id": "C70", "title": "The AArch64 float kernels compute the matrix product", "statement": "The assembly code of KernelFloatNeon, KernelFloatNeonX1, KernelFloatNeonA55ish and KernelFloatNeonDotprodA55ish stops, accesses only floats of the buffers it is given, stores in every entry of its blocks that lies inside the destination the products of the packed row and column, each level of depth once, accumulated by fused multiply-adds from zero, plus the bias, clamped, and changes nothing else. All four add the products in the same order, so the choice of the kernel does not change the result.", "quantifier": "all packed contents, depths (at least 1), block ranges, strides, biases, clamping bounds, any arithmetic on floats, all initial register contents", "why_tests_cant": "Contents, shapes and depths are unbounded; each processor runs only one of the kernels; a different order of additions shows only in the last bits, which tests allow to differ.", "anchors": ["ruy/kernel_arm64.cc:KernelFloatNeon", "ruy/kernel_arm64.cc:KernelFloatNeonX1", "ruy/kernel_arm64.cc:KernelFloatNeonA55ish", "ruy/kernel_arm64.cc:KernelFloatNeonDotprodA55ish"]}
{"id": "C71", "title": "How far results of the AArch64 float kernels are from exact ones", "statement": "Each of the AArch64 float kernels stores, for finite operands, a finite number within ((1+u)^(n+1) - 1) times the sum of the magnitudes of the products and the bias (plus a multiple of the underflow threshold) of the exact, clamped sum; so the results of any two of them are at most twice that apart. Integers with small sums of magnitudes are multiplied exactly. A NaN in an operand, the bias or a bound is stored as a NaN.", "quantifier": "all calls of the four kernels as in C70, all roundings with relative error u and absolute error eta, in particular binary32 rounded to nearest with and without flushing to zero", "why_tests_cant": "A bound for all operands; tests compare with a tolerance chosen by experience.", "anchors": ["ruy/kernel_arm64.cc:KernelFloatNeon", "ruy/kernel_arm64.cc:KernelFloatNeonA55ish"]}
{"id": "C72", "title": "Packing of float matrices on AArch64", "statement": "The assembly code of PackFloatColMajorForNeon and PackFloatColMajorForNeonA55ish stops, reads only the source columns and the zero buffer, and writes only the packed columns. After PackImpl::Run each element of the source is in the packed matrix, bit by bit, where the layout says, columns beyond the source are zero, and nothing else has changed. Both functions, the memcpy packing of a row-major matrix with the same elements and the portable packing leave the same packed matrix.", "quantifier": "all numbers of rows and columns, strides, contents, column ranges that are multiples of 8, all initial register contents", "why_tests_cant": "Shapes, strides and contents are unbounded; bits lost in packing (the sign of a zero, a NaN's payload) do not show in a product compared with a tolerance.", "anchors": ["ruy/pack_arm.cc:PackFloatColMajorForNeon", "ruy/pack_arm.cc:PackFloatColMajorForNeonA55ish", "ruy/pack_arm.h:PackImpl"]}
{"id": "C73", "title": "Float multiplication on AArch64, packing and kernels together", "statement": "Pack calls and kernel calls on float matrices on the paths kNeon and kNeonDotprod, in any order that packs the columns a kernel needs before it, with any blocks and with any tuning for each call, stop without fault and without access beyond a buffer. Every entry in a kernel block is the sum of products in the order of the kernel, plus bias, clamped; the rest of the destination and the inputs are unchanged. In binary32 every entry is within a bound of the exact result that depends only on depth and magnitudes; small integers are multiplied exactly; NaNs are passed on. Order, blocks and tunings do not influence the result.", "quantifier": "all shapes, strides, source orders, contents, block choices, call orders, tunings; all arithmetic", "why_tests_cant": "The interplay of tunings, block boundaries, ragged edges and order has no bound; rounding errors are compared with a tolerance in tests.", "anchors": ["ruy/kernel_arm.h:Kernel<Path::kNeon, float, float, float, float>::Run", "ruy/kernel_arm.h:Kernel<Path::kNeonDotprod, float, float, float, float>::Run", "ruy/kernel_common.h:MakeKernelParamsFloat", "ruy/pack.h:RunPack"]}
{"id": "C74", "title": "Float multiplication on AArch64 by several threads", "statement": "TrMul on float matrices on the paths kNeon and kNeonDotprod, with any block map, any number of threads, any schedule, any prepacked sides and any tuning of each call: no step fails; when all tasks have returned, every entry is written as C73 says and nothing else has changed; under fair schedules all tasks return. The destination is the same for all block maps, thread counts and schedules.", "quantifier": "all shapes, block maps made by MakeBlockMap, thread counts, schedules, tunings, contents", "why_tests_cant": "Schedules and shapes cannot be enumerated, and results that depend on which core a thread ran on do not recur.", "anchors": ["ruy/trmul.cc:TrMul", "ruy/trmul.cc:TrMulTask::Run", "ruy/kernel_arm.h:Kernel"]}
{"id": "C75", "title": "No data race between the tasks of TrMul", "statement": "In every execution of the tasks of TrMul that the C++ memory model allows, with the memory orders that the code uses and stale values wherever the model allows them: two calls of RunPack, RunKernel or the tuning resolver that access the same memory, at least one writing, are ordered by happens-before; the RUY_DCHECK after packing never fails and no block index is out of range; each block of a side is packed at most once and each block of the destination computed at most once, after its two blocks have been packed; the block counter stays below the number of tasks plus the number of blocks; when all tasks have returned every block has been computed; and any order of the calls that respects happens-before leaves the destination that C52, C60, C61, C68, C73, C87, C89 and C92 describe.", "quantifier": "all executions that the axioms of the memory model allow, all block maps, thread counts, prepacked sides, with or without debug checks", "why_tests_cant": "Tests run on hardware stronger than the memory model, under the schedules that happen to occur; thread sanitizers only see executions that occurred.", "anchors": ["ruy/trmul.cc:TrMulTask::Run", "ruy/trmul.cc:TrMulTask::TryPack", "ruy/trmul.cc:TrMulTask::EnsurePacked", "ruy/trmul.cc:TrMul"]}
{"id": "C76", "title": "The thread pool hands over tasks without a race", "statement": "In every execution of a ThreadPool that the C++ memory model allows, with the memory orders that thread_pool.cc and blocking_counter.cc use and arbitrary tasks: what the calling thread did before Execute happens before every action of every task of that call; every action of the tasks happens before what follows Execute; when Execute returns each of its tasks has run exactly once, task 0 on the calling thread and task i on worker i-1, and nothing else has run; any two accesses to a worker's task_ pointer are ordered by happens-before although it is not atomic and the store of Ready is relaxed; no RUY_DCHECK of the pool or of the blocking counter fails, no worker calls through a null pointer, and the counter never goes below 0; after the destructor everything the workers did happens before; and no thread is ever stuck in a state without a next action.", "quantifier": "all executions that the axioms of the memory model allow, any sequence of calls of Execute with any numbers of tasks, tasks that do anything outside of the pool, with or without debug checks", "why_tests_cant": "Relaxed stores and stale loads that the memory model allows do not occur on x86; thread sanitizers only see executions that occurred.", "anchors": ["ruy/thread_pool.cc:Thread::ThreadFunc", "ruy/thread_pool.cc:ThreadPool::ExecuteImpl", "ruy/thread_pool.cc:ThreadPool::CreateThreads", "ruy/thread_pool.cc:ThreadPool::~ThreadPool", "ruy/blocking_counter.cc:BlockingCounter::Reset", "ruy/blocking_counter.cc:BlockingCounter::DecrementCount", "ruy/blocking_counter.cc:BlockingCounter::Wait"]}
{"id": "C77", "title": "Multi-threaded TrMul on the thread pool, end to end", "statement": "In every execution of a program that the C++ memory model allows, in which some call of ThreadPool::Execute runs the tasks of a TrMul and nobody else writes to the atomics of that TrMul while it runs: there is no data race between the tasks, what the calling thread did before Execute, and what it does after it; no check fails; each block is packed and computed at most once, by whichever thread; when Execute has returned every block has been computed, and all that happens before what follows; and in every order of the calls that respects happens-before, the destination contains the product that C52, C60, C61, C68, C73, C87, C89 and C92 describe.", "quantifier": "all executions that the axioms of the memory model allow, all block maps, thread counts, prepacked sides, any code of the program before, after and beside the call, any further calls of Execute, with or without debug checks", "why_tests_cant": "The guarantee combines the orders of the atomics of the pool with those of the tasks; a missing order in either shows only on weak hardware under rare timings.", "anchors": ["ruy/trmul.cc:TrMul", "ruy/trmul.cc:TrMulTask::Run", "ruy/thread_pool.cc:ThreadPool::ExecuteImpl", "ruy/thread_pool.h:ThreadPool::Execute"]}
{"id": "C78", "title": "A profile counts every sample once at every level", "statement": "With RUY_PROFILER: the buffer of samples reads back as the labels of the scopes each sampled thread was in when it was sampled, outermost first, with the id of the thread's stack, and ids of different threads differ; in the tree of a thread the node reached by some labels weighs exactly the number of samples that begin with them, an [other] entry the number of samples that end at its parent, there is a node for every beginning of a sample, the children of a node weigh together what it weighs and are sorted, the depth is the length of the longest sample, all weights fit into an int; WeightBelowNodeMatching counts each sample once per matching label; CollapseNode and CollapseSubnodesMatchingFunction keep exactly the nodes they should with their weights.", "quantifier": "all interleavings of scopes, thread ends and samples of any number of threads; all lists of samples, trees, depths, predicates, any order std::sort may choose", "why_tests_cant": "Samples are taken at random times; the test of the profiler checks a few recursive functions and inequalities of weights only.", "anchors": ["ruy/profiler/instrumentation.h:ThreadStack::Push", "ruy/profiler/instrumentation.cc:CopyToBuffer", "ruy/profiler/instrumentation.cc:ReadFromBuffer", "ruy/profiler/profiler.cc:ScopeProfile::Sample", "ruy/profiler/treeview.cc:TreeView::Populate", "ruy/profiler/treeview.cc:AddStack", "ruy/profiler/treeview.cc:AddOther", "ruy/profiler/treeview.cc:WeightBelowNodeMatchingFunction", "ruy/profiler/treeview.cc:CollapseSubnodesMatchingFunction"]}
{"id": "C79", "title": "Profiles of any length, labels of any name, nested scopes", "statement": "A profile may run for any time and the labels may be any strings: the buffer of samples never overflows the int that holds its size, siblings in a tree view always have different labels, and the weight of the nodes that match is the number of samples with a matching label.", "quantifier": "all durations, labels and nestings of scopes", "why_tests_cant": "The overflow takes minutes to hours of profiling.", "anchors": ["ruy/profiler/profiler.cc:ScopeProfile::Sample", "ruy/profiler/treeview.cc:AddOther", "ruy/profiler/treeview.cc:WeightBelowNodeMatchingFunction"]}
{"id": "C80", "title": "asm statements change only the registers they declare", "statement": "Each asm statement of the AArch64 kernels and pack functions changes, at any time during its execution, only its output operands and the general-purpose and vector registers in its clobber list; input operands and all other registers keep their values.", "quantifier": "all states at the start, parameters, sizes of buffers and numbers of steps", "why_tests_cant": "Whether the compiler keeps a value in a register that is wrongly missing from the list depends on the compiler, its flags and the surrounding code.", "anchors": ["ruy/kernel_arm64.cc:Kernel8bitNeonDotprod1Col", "ruy/kernel_arm64.cc:Kernel8bitNeon", "ruy/kernel_arm64.cc:KernelFloatNeon", "ruy/pack_arm.cc:Pack8bitColMajorForNeon", "ruy/pack_arm.cc:PackFloatColMajorForNeon"]}
{"id": "C81", "title": "The ARM32 float kernel computes the matrix product and keeps to its clobber list", "statement": "The asm statement of KernelFloat32Neon stops, reads and writes only inside its buffers and its stack frame, restores the stack pointer, stores in every entry of the call inside the destination the sum of the products by increasing depth plus the bias, clamped, leaves the rest of memory unchanged, and changes no register beyond its output operands and clobber list.", "quantifier": "all parameters that fit the buffers, all float arithmetics, all contents of memory and registers", "why_tests_cant": "400 lines of assembly with edge cases in every dimension; registers missing from a clobber list do harm only with some compilers and flags.", "anchors": ["ruy/kernel_arm32.cc:KernelFloat32Neon", "ruy/kernel_common.h:KernelParamsFloat", "ruy/kernel_common.h:MakeKernelParamsFloat"]}
{"id": "C82", "title": "ARM32 float packing followed by the ARM32 kernel multiplies the source matrices", "statement": "Packing of column-major float matrices on 32-bit ARM, for eight and for four columns, stops, accesses only its buffers, keeps undeclared registers, and leaves every element of the source where the layout of the packed matrix puts it, with zeros beyond the last column; the kernel run on the two packed sides then leaves the products of the source elements, and no offset overflows.", "quantifier": "all shapes, strides, column ranges and contents that fit the buffers; all register contents", "why_tests_cant": "packing bugs at row counts not divisible by four or at the last columns may show up only as wrong padding; offsets overflow only with large strides.", "anchors": ["ruy/pack_arm.cc:PackFloatColMajorForNeon", "ruy/pack_arm.h:PackImpl", "ruy/pack_common.h:MemcpyRowMajorFloatPackImpl"]}
{"id": "C83", "title": "The ARM32 8-bit kernel multiplies and declares what it clobbers", "statement": "Kernel8bitNeon for 32-bit ARM stops, does nothing undefined, reads only its operands, and leaves in every destination entry of its range the quantized (for int32: raw) sum of products with bias and zero points, in memory outside of those entries what was there before, and in registers not declared as outputs or clobbers what was there before.", "quantifier": "all shapes, strides, ranges, zero points, bounds, channel dimensions, presence of bias and sums, destination types and contents that fit the buffers; all initial register contents", "why_tests_cant": "an undeclared clobber matters only if the compiler keeps a live value in that register; the order of the checks of flags and types matters only for combinations that the usual front end does not produce; int16 overflow takes two products of -128 by -128 in the right places.", "anchors": ["ruy/kernel_arm32.cc:Kernel8bitNeon", "ruy/kernel_arm.h:Kernel8bitNeon", "ruy/kernel_common.h:KernelParams8bit"]}
{"id": "C84", "title": "ARM32 8-bit packing feeds the kernel and declares what it clobbers", "statement": "Pack8bitColMajorForNeon4Cols and Pack8bitColMajorForNeon2Cols, with the PackImpl loops around them, stop without undefined behaviour, read only the source and zerobuf, and leave every packed entry (the source element, minus 128 for uint8, or the zero point outside the source) where the packed layout says and every column sum, as the portable packing code does; they change no register that is not declared; and the ARM32 8-bit kernel run on both packed sides stores the product of the source matrices without zero points.", "quantifier": "all shapes, strides, column ranges, zero points, int8 and uint8 sources, with and without sums, all contents that fit the buffers; all initial register contents", "why_tests_cant": "an undeclared clobber, or an input operand that is changed, matters only if the compiler keeps a live value there; tails of 1 to 15 rows in each of the column pairs, partial blocks and 32-bit offsets combine into too many cases.", "anchors": ["ruy/pack_arm.cc:Pack8bitColMajorForNeon4Cols", "ruy/pack_arm.cc:Pack8bitColMajorForNeon2Cols", "ruy/pack_arm.h:PackImpl", "ruy/pack_arm.h:MakePackParams8bit"]}
{"id": "C85", "title": "The ARM32 8-bit kernel for one column agrees with the general one", "statement": "Kernel8bitNeon1Col for 32-bit ARM, which replaces Kernel8bitNeon when the destination has one column and channels are rows, stops, does nothing undefined, leaves in every destination entry of its range the quantized (for int32: raw) sum of products with bias and zero points, the same memory as Kernel8bitNeon would, does not depend on the second column of the packed RHS, and changes no register that is not declared.", "quantifier": "all row ranges, depths, strides, zero points, bounds, presence of bias and sums, destination types and contents that fit the buffers; all initial register contents", "why_tests_cant": "tests compare with the reference within tolerances and for few shapes of one column; an undeclared clobber matters only if the compiler keeps a live value in that register; the order of the checks of flags and types matters only for combinations the usual front end does not produce.", "anchors": ["ruy/kernel_arm32.cc:Kernel8bitNeon1Col", "ruy/kernel_arm.h:Kernel", "ruy/kernel_common.h:KernelParams8bit"]}
{"id": "C86", "title": "ARM32 packing of row-major 8-bit matrices", "statement": "Packing a row-major 8-bit matrix for Path::kNeon on 32-bit ARM (PackImpl for FixedKernelLayout<kColMajor, 16, KernelCols> and Pack8bitRowMajorForNeon with KernelCols = 2 or 4) does nothing undefined, puts every entry where the packed layout has it, leaves the column sums of the packed entries, writes nothing else, and agrees with the portable packing and with the packing of the same matrix stored column-major.", "quantifier": "all source shapes, strides, zero points, signedness, column ranges and contents that fit the buffers; all initial memory", "why_tests_cant": "tests compare final products, in which wrong entries in columns beyond the source have no effect, and cover few remainders of rows and columns modulo 16, 8 and the kernel width", "anchors": ["ruy/pack_arm.cc:2220-2476", "ruy/pack_arm.h:575-609", "ruy/kernel_arm.h:86-87"]}
{"id": "C87", "title": "8-bit multiplication on 32-bit ARM, packing and kernels together", "statement": "On Path::kNeon for 32-bit ARM, any sequence of RunPack and RunKernel calls that packs columns before they are multiplied stops without undefined behaviour, leaves in every destination entry of a kernel block the exact product with bias and zero points put through the output stage, changes nothing else, and leaves the same destination as any other such sequence and as the AArch64 path.", "quantifier": "all 8-bit source matrices of either order and signedness, shapes, strides, zero points, bias and multipliers, destination types, sequences of calls, blocks, and initial contents of memory and registers that fit the buffers and the 32-bit address space", "why_tests_cant": "tests compare results of one schedule per shape within tolerances; they do not cover all blocks and orders, stale packed buffers, or the pairs of smallest values that overflow int16", "anchors": ["ruy/kernel_arm.h:82-104", "ruy/kernel_common.h:132-213", "ruy/pack.h:134-151", "ruy/pack_arm.h:140-271", "ruy/pack_arm.h:575-609", "ruy/trmul.cc:335-356"]}
{"id": "C88", "title": "8-bit multiplication on 32-bit ARM by one or several threads", "statement": "On the path kNeon of 32-bit ARM, TrMul on 8-bit matrices, run as a single-threaded block loop or by any number of threads under any schedule, with any block map that MakeBlockMap produces for kernels of four rows and two columns and any sides prepacked, performs no step that is undefined or fails a check. When all tasks have returned (which they do under every fair schedule), every destination entry has the value that the simple loop stores (C87), no other byte of the destination and no input has changed, and the destination does not depend on block map, number of threads, schedule, prepacking or previous contents of the packed buffers. It is the destination that the AArch64 path leaves (C60).", "quantifier": "all sizes, storage orders, int8/uint8 sources, zero points, destination types and multiplier parameters as in C87, all block maps, all numbers of threads, all schedules, all memory contents", "why_tests_cant": "The set of interleavings of threads that take blocks from a counter and pack for each other is infinite; a test sees a few interleavings on one device, and results on two architectures are never compared.", "anchors": ["ruy/trmul.cc:TrMulTask::Run", "ruy/trmul.cc:TryPack", "ruy/trmul.cc:TrMul", "ruy/pack_arm.h:PackImpl::Run", "ruy/kernel_arm.h:Kernel::Run"]}
{"id": "C89", "title": "Float multiplication on 32-bit ARM, packing and kernel together", "statement": "On the path kNeon of 32-bit ARM, any sequence of RunPack and RunKernel calls on float matrices that packs columns before they are multiplied stops without undefined behaviour, leaves in every destination entry of a kernel block the sum of the products by increasing depth plus bias, clamped, and changes nothing else; two such sequences that write the same entries leave the same destination. The result is within (depth + 2) * 2^-23 times the sum of the magnitudes of the exact product (plus a multiple of the smallest float), exact for small integers, and a NaN in the operands, the bias or a clamp bound is stored as a NaN. It is the result of the AArch64 path.", "quantifier": "all float source matrices of either storage order that fit a 32-bit address space, shapes, strides, biases, clamp bounds, sequences of calls, blocks, and initial contents of memory and registers", "why_tests_cant": "Tests compare a few random products with a tolerance; they neither bound the error for all inputs nor see out-of-range reads, overflow of offsets for matrices with huge strides, or dependence on stale packed data.", "anchors": ["ruy/pack_arm.h:PackImpl::Run", "ruy/pack_arm.cc:PackFloatColMajorForNeon", "ruy/kernel_arm.h:Kernel::Run", "ruy/kernel_arm32.cc:KernelFloat32Neon", "ruy/kernel_common.h:MakeKernelParamsFloat"]}
{"id": "C90", "title": "Float multiplication on 32-bit ARM by one or several threads", "statement": "On the path kNeon of 32-bit ARM, TrMul on float matrices, run as a single-threaded block loop or by any number of threads under any schedule, with any block map that MakeBlockMap produces for kernels of eight rows and four columns and any sides prepacked, performs no step that is undefined or fails a check. When all tasks have returned (which they do under every fair schedule), every destination entry has the value that the simple loop stores (C89), bit for bit, no other float of the destination and no input has changed, and the destination does not depend on block map, number of threads, schedule, prepacking or previous contents of the packed buffers. In binary32 it is within the sum of the bounds of C89 and C73 of any destination that the AArch64 path leaves (C74), and equal to it for small integers.", "quantifier": "all sizes, storage orders, strides, biases and clamp bounds as in C89, all block maps, all numbers of threads, all schedules, all memory contents", "why_tests_cant": "The set of interleavings of threads that take blocks from a counter and pack for each other is infinite; a test sees a few interleavings on one device, and results on two architectures are never compared.", "anchors": ["ruy/trmul.cc:TrMulTask::Run", "ruy/trmul.cc:TryPack", "ruy/trmul.cc:TrMul", "ruy/pack_arm.h:PackImpl::Run", "ruy/kernel_arm.h:Kernel::Run"]}
{"id": "C91", "title": "SIMD packing of int16 sources for AVX-512 equals generic packing", "statement": "Whenever the generic packing code packs columns [lo, hi) of a column-major int16 source for the AVX-512 kernel (blocks of four rows and sixteen columns), Pack16bitColMajorForAvx512 performs no undefined step, reads nothing outside the source, and leaves the same packed matrix: the same 16-bit elements, column sums and everything outside the columns packed.", "quantifier": "all contents, numbers of rows and columns, strides, zero points of 16 bits, ranges of columns, with or without sums", "why_tests_cant": "The lane permutations, the masked loads of the last rows and the trailing buffer must be right for every residue of the number of rows modulo 16 and of columns modulo 16; the padding of the second half is never observed by a multiplication.", "anchors": ["ruy/pack_avx512.cc:908-968", "ruy/pack_avx512.cc:477-662", "ruy/pack_x86.h:281-320"]}
{"id": "C92", "title": "int8 by int16 multiplication on AVX2 and AVX-512, packing and kernels together", "statement": "On the paths kAvx2Fma and kAvx512, for an 8-bit LHS (int8 or uint8) and an int16 RHS in any storage orders, the calls of RunPack and RunKernel that TrMul makes, in any order that packs the columns of a block before it is multiplied, perform no undefined step and no access outside the buffers for depths below 2^16. Every destination entry in a kernel block is the exact bias plus inner product of the sources minus their zero points: that value, if it fits, for int32 destinations, and the exactly rounded and clamped value, or one more if the exponent is negative, otherwise. Nothing else in the destination buffer changes, and order and choice of blocks do not matter.", "quantifier": "all sizes, strides, storage orders, contents, zero points, biases, per-channel multipliers, destination types, lists of calls", "why_tests_cant": "The paths mix the SIMD packing of int16 columns on AVX-512, which leaves wrong padding (C91), the generic packing otherwise, whose sums can overflow, and kernels that widen one side only; all sizes modulo 8 or 16 and all contents matter.", "anchors": ["ruy/kernel_x86.h:62-86", "ruy/kernel_x86.h:136-159", "ruy/pack_x86.h:281-320", "ruy/pack.h:104-132", "ruy/kernel_avx512.cc:Kernel8bitAvx512", "ruy/kernel_avx2_fma.cc:Kernel8bitAvx2"]}
{"id": "C93", "title": "int8 by int16 multiplication on AVX2 and AVX-512 by several threads", "statement": "On the paths kAvx2Fma and kAvx512, for an 8-bit LHS and an int16 RHS, the block loop of one thread and every execution of TrMul by several threads, for every block map, every choice of prepacked sides and every schedule, perform no undefined step; when all tasks have returned, which under a fair schedule they do, every destination entry is written as in C92, nothing else in the destination buffer has changed, and the destination is the one the simple loop leaves.", "quantifier": "all sizes, strides, storage orders, contents, zero points, biases, multipliers, destination types, block maps, thread counts, schedules", "why_tests_cant": "Schedules are not under the control of a test, and the two RHS packing routines and padding left wrong by one of them (C91) meet every block boundary only over all sizes and block maps.", "anchors": ["ruy/trmul.cc:60-422", "ruy/kernel_x86.h:62-86", "ruy/kernel_x86.h:136-159", "ruy/pack_x86.h:281-320"]}
{"id": "C94", "title": "ruy::Mul with 8-bit matrices on x86, from its arguments to its destination", "statement": "On the paths kAvx2Fma, kAvx and kAvx512, ruy::Mul with int8 or uint8 sources and any destination order, given arguments that pass validation, buffers of the documented capacity and sizes within explicit bounds, returns without undefined behaviour: whatever fresh memory contains, the front end sets up packed matrices and replaces short per-channel buffers so that TrMul may run as the simple loop, by blocks, or by any number of threads under any schedule. The entry (i, j) of an int32 destination is then the exact bias plus inner product, if that fits; other destinations get the exactly rounded, clamped entry, or one more if the exponent is negative. Nothing else in the destination's memory changes, and all three paths leave the same int32 destination.", "quantifier": "all sizes, strides, storage orders of all three matrices, contents, zero points, biases, multipliers, channel dimensions, capacity roundings, destination types, initial contents of allocated memory, block maps, prepacked sides, thread counts, schedules", "why_tests_cant": "The transposed case for row-major destinations, short per-channel buffers and partial blocks combine with every block map and schedule; a test samples few of these, and reading beyond a buffer usually goes unnoticed.", "anchors": ["ruy/frontend.h:47-71", "ruy/create_trmul_params.h:405-480", "ruy/prepare_packed_matrices.cc:70-95", "ruy/trmul.cc:310-422", "ruy/kernel_x86.h:40-60"]}
{"id": "C95", "title": "ruy::Mul with an 8-bit and an int16 matrix on AVX2 and AVX-512, from its arguments to its destination", "statement": "On the paths kAvx2Fma and kAvx512, ruy::Mul with an 8-bit LHS and an int16 RHS for a column-major destination, or an int16 LHS and an 8-bit RHS for a row-major one, given arguments that pass validation, buffers of the documented capacity and a depth below 2^16, returns without undefined behaviour, whatever fresh memory contains and whether TrMul runs as the simple loop, by blocks, or by any number of threads under any schedule. The entry (i, j) of an int32 destination is then the exact bias plus inner product, if that fits; other destinations get the exactly rounded, clamped entry, or one more if the exponent is negative. Nothing else in the destination's memory changes, both paths leave the same int32 destination, and arguments with a zero point other than 0 are rejected.", "quantifier": "all sizes, strides, storage orders of all three matrices, contents, biases, multipliers, channel dimensions, capacity roundings, destination types, initial contents of allocated memory, block maps, prepacked sides, thread counts, schedules", "why_tests_cant": "The exchange of sides decides which source is widened; it combines with two packing routines, short per-channel buffers, partial blocks, block maps and schedules, of which a test samples few.", "anchors": ["ruy/frontend.h:47-71", "ruy/validate.h:40-83", "ruy/create_trmul_params.h:405-480", "ruy/kernel_x86.h:62-86", "ruy/kernel_x86.h:136-159", "ruy/pack_x86.h:44-57", "ruy/trmul.cc:310-422"]}
{"id": "C96", "title": "ruy::Mul with float matrices on the x86 paths, from its arguments to its destination", "statement": "On the paths kAvx, kAvx2Fma and kAvx512, ruy::Mul with float matrices, given zero points of 0 and a bias buffer of the documented capacity, returns without undefined behaviour, whatever fresh memory contains and whether TrMul runs as the simple loop, by blocks, or by any number of threads under any schedule. The entry (i, j) is then the bias of its channel followed by one multiply-add per depth index in increasing order, clamped; for row-major destinations the factors of each multiply-add are exchanged, which makes no difference if the multiply-add allows it. Integers on which the arithmetic is exact give the exact entry. Nothing else in the destination's memory changes. Paths with the same multiply-add leave the same destination, and arguments with a zero point other than 0 fail an assertion.", "quantifier": "all float types and operations, all sizes, strides, storage orders of all three matrices, contents, biases, channel dimensions, capacity roundings, initial contents of allocated memory, block maps, prepacked sides, thread counts, schedules", "why_tests_cant": "Tests compare floats with tolerances, and the exchange of sides, short bias buffers, partial blocks, block maps and schedules combine to more cases than a test samples.", "anchors": ["ruy/frontend.h:47-71", "ruy/validate.h:40-83", "ruy/create_trmul_params.h:405-480", "ruy/kernel_x86.h:KernelFloatAvxCommon", "ruy/kernel_avx512.cc:KernelFloatAvx512", "ruy/trmul.cc:310-422"]}
{"id": "C97", "title": "Binary32 results of ruy::Mul on the x86 paths are close to the exact ones", "statement": "Let S be the sum of the magnitudes of the bias and all products for a destination entry, n the depth (below 2^23) and S at most 2^126. When ruy::Mul with binary32 matrices that are not NaN or infinite runs on kAvx, kAvx2Fma or kAvx512, with any storage orders, block map, threads and schedule, every entry is a finite number within (n+1) 2^-23 S plus 4n times the underflow threshold of the exact, clamped result. It is within (2n+3) 2^-23 S, plus underflow, of what ReferenceMul stores for the same arguments, and two paths differ by at most (2n+2) 2^-23 S plus underflow, although they differ in general because only some fuse multiplications and additions. Integers whose products and partial sums are at most 2^24 are multiplied exactly.", "quantifier": "all finite binary32 matrices, all sizes, strides, storage orders of all three matrices, biases, clamp bounds that are not NaN, channel dimensions, with or without flushing of tiny results, all block maps, thread counts and schedules", "why_tests_cant": "Tests compare with a tolerance chosen by experiment on random values; they show neither that it holds for all inputs and paths nor that an error within it is rounding.", "anchors": ["ruy/frontend.h:47-71", "ruy/create_trmul_params.h:405-480", "ruy/kernel_x86.h:KernelFloatAvxCommon", "ruy/kernel_avx512.cc:KernelFloatAvx512", "ruy/reference_mul.h:ReferenceMul", "ruy/test.h:Agree"]}
{"id": "C98", "title": "ruy::Mul with float matrices on the AArch64 paths, from its arguments to its destination", "statement": "On the paths kNeon and kNeonDotprod of AArch64, ruy::Mul with float matrices, given zero points of 0 and a bias buffer of the documented capacity, returns without undefined behaviour, whatever fresh memory contains, whatever tunings the threads find, and whether TrMul runs as the simple loop, by blocks, or by any number of threads under any schedule. Each entry is then the sum of products, added up in the order of one of the kernels, plus the bias of its channel, clamped; nothing else in the destination's memory changes. If all kernels add up in the same order, or the depth is below 8, the destination depends only on the arguments. In binary32 every entry is a finite number within (n+1) 2^-23 of the sum of magnitudes, plus underflow, of the exact, clamped result (n the depth), so that two executions differ by at most twice that; integers whose products have magnitudes that add up to at most 2^24 are multiplied exactly.", "quantifier": "all float operations, all sizes, strides, storage orders of all three matrices, contents, biases, channel dimensions, capacity roundings, initial contents of allocated memory, registers and stack, tunings of every call, block maps, prepacked sides, thread counts, schedules; for the bounds all finite binary32 matrices", "why_tests_cant": "The tuning of a call depends on the core its thread runs on; combined with the exchange of sides, short bias buffers, partial blocks, block maps and schedules there are more cases than a test samples, and tests compare with tolerances chosen by experiment.", "anchors": ["ruy/frontend.h:47-71", "ruy/create_trmul_params.h:405-480", "ruy/kernel_arm.h:141-214", "ruy/pack_arm.h:366-368", "ruy/trmul.cc:310-422"]}
{"id": "C99", "title": "ruy::Mul with float matrices on 32-bit ARM, from its arguments to its destination", "statement": "On the path kNeon of 32-bit ARM, ruy::Mul with float matrices, given zero points of 0 and a bias buffer of the documented capacity, returns without undefined behaviour, whatever fresh memory contains, and whether TrMul runs as the simple loop, by blocks, or by any number of threads under any schedule. Each entry is then the sum of products by increasing depth plus the bias of its channel, clamped; nothing else in the destination's memory changes, and the destination depends only on the arguments. With the arithmetic of 32-bit Advanced SIMD, which flushes denormals, and without denormal operands, every entry is a finite number within (n+2) 2^-23 of the sum of magnitudes, plus underflow, of the exact, clamped result (n the depth), which bounds the distance to the result of AArch64; integers whose products have magnitudes that add up to at most 2^24 are multiplied exactly. AArch64 can leave another destination for the same arguments.", "quantifier": "all float operations, all sizes, strides, storage orders of all three matrices that fit a 32-bit address space, contents, biases, channel dimensions, capacity roundings, initial contents of allocated memory, registers and stack, block maps, prepacked sides, thread counts, schedules; for the bounds all finite binary32 matrices without denormals", "why_tests_cant": "Packed blocks of eight and four columns change sides with the storage order of the destination; combined with short bias buffers, partial blocks, block maps and schedules there are more cases than a test samples, and tests compare with tolerances chosen by experiment.", "anchors": ["ruy/frontend.h:47-71", "ruy/create_trmul_params.h:405-480", "ruy/kernel_arm.h:167-187", "ruy/pack_arm.h:362-488", "ruy/trmul.cc:310-422"]}
{"id": "C100", "title": "The same float multiplication on x86, AArch64, 32-bit ARM and by ReferenceMul", "statement": "Called with the same float matrices and parameters, with clamp bounds in order, ruy::Mul on any x86 path, on either AArch64 path and on 32-bit ARM, and ReferenceMul, leave entries whose distance is bounded by (2n+2) 2^-23 (x86 and AArch64), (2n+3) 2^-23 (x86 and 32-bit ARM; AArch64 and ReferenceMul) or (2n+4) 2^-23 (32-bit ARM and ReferenceMul) times the sum of magnitudes, plus underflow (n the depth), whatever tunings, block maps, threads and schedules. For integers up to 2^24 whose products have magnitudes that add up to at most 2^24 the entries are the same on all three architectures. If the lower clamp bound exceeds the upper one, which nothing checks, x86 stores the lower bound and ARM the upper bound.", "quantifier": "all sizes, strides, storage orders, contents (finite binary32, without denormals for 32-bit ARM), biases, channel dimensions, paths, tunings, block maps, thread counts, schedules, initial contents of allocated memory", "why_tests_cant": "A test binary runs on one architecture at a time; results of different architectures are never compared with each other, and tests use bounds that are in order.", "anchors": ["ruy/frontend.h:47-71", "ruy/mul_params.h:151-156", "ruy/kernel_arm.h:141-214", "ruy/kernel_x86.h:93-94", "ruy/reference_mul.h:ReferenceMul"]}
