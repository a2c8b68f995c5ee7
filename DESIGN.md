# Formal model of Nugine/simd in Lean 4

## 1. What is modelled, and how

Everything is one shallow embedding of the Rust code in `/repo/crates/*/src`.

* **Bytes and memory** (`Verif/Model/Core.lean`). A byte is `BitVec 8`. A memory is a set of
  allocations; a cell is `Option Byte`, `none` = uninitialised. A pointer is (allocation, offset).
* **Programs** (`Prog α`). A free monad whose commands are: load n bytes, store bytes, pointer
  arithmetic check, allocate. It ends in a value, in `err` (the Rust `Err`), in `panic`
  (`unreachable!`, `unimplemented!`, failed `assert!`, slice index panic, arithmetic overflow check) or in `ub`
  (out-of-bounds or uninitialised access, out-of-bounds pointer arithmetic, `unreachable_unchecked`,
  out-of-range static table index, zero-size or oversized allocation). `run` executes a program on a
  memory; `wp` is the weakest precondition, proved sound for `run`. A theorem of the form
  "`run` gives `ok`" therefore also says that no UB and no panic occurred.
* **Vectors** (`Verif/Model/Vec.lean`). `Vec n` is a vector of `n` byte lanes, indexed by `Nat` (lanes ≥ n are
  meaningless and never stored, reduced or mentioned in a theorem). 16/32/64-bit lanes are little-endian byte groups.
  Each CPU intrinsic used by the crates has a lane-wise definition there. These definitions are trusted.
* **Instruction sets** (`Verif/Model/Isa.lean`). `Isa` enumerates SSE2, SSSE3, SSE4.1, AVX2, NEON on
  arm, NEON on aarch64, WASM128; `matchesIsa` models `isa.rs`. Each vsimd operation is a function of the `Isa` with the
  same branch order as the code; a missing branch is `none` (= panic).
* **Crates.** `vsimd` (alsw, hex, bswap, ascii, mask, table, unified, dispatch macro), `hex-simd`, `base64-simd`,
  `base32-simd`, `uuid-simd`, `unicode-simd`: function by function, loops as well-founded recursion. The public helpers of
  tools.rs, pod.rs and vector.rs that nothing else in the crates needs are in `Verif/Model/Tools.lean` (C84).
* **Dispatch.** API functions take `impl : Option Isa` (`none` = fallback). The list of targets of each
  `dispatch!` is transcribed, and theorems quantify over every member. The dispatch macro itself
  (IFUNC cell, relaxed atomics, any number of threads) is a separate transition system (`Verif/Model/Dispatch.lean`),
  parametrised by the compile-time configuration and the CPU; `Runs b cpu d i` says that implementation `i` is executed by
  some call in some interleaving. A relaxed load may return any value ever stored, which allows more than the memory model does.
* **Byte order.** The model is little-endian. `Verif/Model/Endian.lean` repeats the scalar functions that access multi-byte integers with the
  byte order as a parameter (C68, C69).
* **Threads.** `par_encode` yields a list of task programs; a pool state steps any unfinished task by one load or store
  (`Verif/Model/Parallel.lean`). A data race is a step to `bad`, so it is a reachable state that the theorems exclude.
* **native.rs, simulation.rs.** `NativeDispatch` is a function of the compile-time configuration and the CPU; closures are state
  transformers that see the target feature they run under. The Miri stand-ins are list functions, compared with the vector methods.
* **Clients.** `Verif/Model/Appends.lean` is a client that makes any number of appending calls on one vector (C75). `Verif/Model/Scripts.lean` is a thread of a client that makes any calls of the slice functions one after the other, depending on what they return (C81). Neither is part of the crates.
  `Verif/Model/Concurrent.lean` and `Calls.lean` are threads that call slice functions at the same time (C78): single accesses are interleaved in any order,
  a data race is an error. `HeapCalls.lean` adds the functions that allocate (C79); the allocator hands out fresh allocations atomically, and which number an
  allocation gets depends on the schedule, so outcomes are compared up to a renaming of the new allocations.
* **Formatting.** `Verif/Model/Fmt.lean` has the `Display`, `LowerHex`, `UpperHex` and `Debug` impls on a model of `core::fmt` (`Formatter::pad`, `str`'s `Debug` without
  escapes, `to_string`) written from the standard library's documentation; that model is trusted. A sink takes a string completely or fails (C80).
* **Borrow stacks.** `Verif/Model/Borrows.lean` is Stacked Borrows: a stack of items for every byte, tagged pointers, retags, protectors. `Verif/Model/BorrowCalls.lean` repeats the slice
  functions with the references and raw pointers they make (C85). The loops get raw pointers and make no references to the data, so they are the programs of the other files, run on tagged
  pointers. `Verif/Model/BorrowHeap.lean` does the same for the functions that allocate, and has deallocation (C87). Left out: `UnsafeCell`, two-phase borrows, the repeated retags of a reference that is returned or moved, and the state after a panic. `offset_from` compares tags, which is stricter than Rust.
* **Borrow trees.** `Verif/Model/TreeBorrows.lean` is Tree Borrows: a tree of tags for every allocation, a permission of each tag for each byte, retags, protectors and the implicit accesses when they end.
  `Verif/Model/TreeCalls.lean` repeats `BorrowCalls.lean`, except that a raw pointer has the tag of the reference it is made from (C93). `Verif/Model/TreeHeap.lean`
  repeats `BorrowHeap.lean` in the same way (C94). `Verif/Model/TreeUse.lean` repeats `Lend.lean`, programs that keep references (C95), and `Verif/Model/TreePar.lean` repeats `BorrowPar.lean`, `par_encode` (C96). `Verif/Model/TreeExt.lean` has the functions of uuid-simd's `ext.rs` (C97), and `Verif/Model/BorrowExt.lean` the same with borrow stacks (C98). Left out: `UnsafeCell`, two-phase borrows, and the state after a panic.
* **usize.** Lengths are `Nat`; a platform parameter gives the word size, slices have length ≤ isize::MAX, and the length
  functions use checked arithmetic that panics on overflow, so absence of overflow is a theorem. `usize` subtractions and
  `offset_from` panic on underflow, except where the enclosing `if` or an earlier assertion of the same function excludes it; the
  `debug_assert!`s of `forgiving.rs` and `ascii.rs` are assertions. So the model is the dev profile, and as the theorems show
  that none of these checks fails, the release profile behaves the same.

Specifications (`Verif/Spec/*`) do not mention the model: RFC 4648 over bit lists, hex digits, WHATWG forgiving
decode, UUID text forms, Unicode scalar values, UTF-8. `Verif/Spec/Vectors.lean` evaluates them on the test vectors of the standards.

Property theorems live in `Verif/Props/*`, helper lemmas elsewhere.

## 2. Trusted base

* Lean 4.33 kernel; axioms used by the theorems: at most `propext`, `Classical.choice`, `Quot.sound`.
* The reading of the Rust source (every definition cites file and lines) and the lane semantics of intrinsics.
* Rust semantics as abstracted above: a pointer is an allocation and an offset, and its provenance is the whole
  allocation; SIMD targets are little-endian (C68 and C69 treat the scalar code for both byte orders); allocation never fails (the real code aborts via `handle_alloc_error`).
  Most theorems up to C57 put each slice in an allocation of its own; C58–C62 quantify over every memory and every position
  of the slices, which may lie in one allocation. C63 is about the single loads and stores of a run (`Prog.trace`).
* The aliasing rules for references (Stacked Borrows) are modelled for the slice functions, the functions that allocate, `par_encode` and `ext.rs` of uuid-simd (C85, C87, C91, C98); in the other theorems only out-of-bounds and uninitialised accesses,
  invalid pointer arithmetic and data races count as undefined behaviour. Tree Borrows is modelled for the slice functions, the functions that allocate, programs that keep references, `par_encode` and `ext.rs` of uuid-simd (C93, C94, C95, C96, C97). The crate `outref` is not in `/repo`: an `Out` is taken to hold a raw pointer and a length,
  `as_mut_ptr` to return the pointer and `len` to read no memory behind it.
* Alignment is not checked by the memory model; the only typed accesses to more than a byte that are not `*_unaligned` are those of the `u16`/`u32`
  slices, and C67 proves them to be at element boundaries.
* SIMD on big-endian ARM (`aarch64_be`) is not covered: the vector model fixes lane 0 at the lowest address.
* Deallocation and `Drop` are modelled in C87, C89, C90, C92, C94 and C95 only; in the other theorems an allocation stays. A panic that is caught is modelled in C88 (`Model/Unwind.lean`); unwinding drops no values there, for the functions own none when they panic. Allocation failure aborts and is not modelled.
* Programs that use the crates are modelled in C89 (`Model/Client.lean`; this is not code of the repository but stands for all its safe callers). Slices are lent directly from the pointers of the owners, a slice that a call returns is not kept across steps, a program does nothing after a panic, there is one thread, and `par_encode` is not among the calls. C92 (`Model/Lend.lean`) lifts most of this: references that live for any number of steps, made from variables or other references, returned slices that are kept, `par_encode` and the functions of `ext.rs` of uuid-simd (the program sees their results but does not put them into variables); what remains is one thread (apart from those of `par_encode`), nothing after a panic, and variables that are lent without a reference made for the call alone. Its borrow checker (`Spec/Lend.lean`) goes by single bytes and by the order in which references were made; a reference that was made later and covers the same byte is one made from the older name, so it accepts every program that the compiler accepts, and more. `Spec/Client.lean` says which steps the compiler accepts; that it does accept only those is trusted. In C90 a program is any function from what it got to know so far to its next step; it gets to know the bytes it reads, lengths of results, answers of tests and errors, but not addresses or capacities (a program that looks at `Vec::capacity` or at pointers can of course tell machines apart). C99 compares these programs with the same ones over plain memory (`Spec/LendPlain.lean`): there nothing is ever deallocated, so a step that uses freed memory is not told apart; C92 says that no such step occurs. C100 compares the programs of C95 with the same plain memory and with those of C99 (`Spec/TreeUsePlain.lean`). C101 (`Spec/LendTwin.lean`) compares runs of a program on two machines; as in C90, the program says what is in its source, and the machine adds implementations, capacities and numbers of threads. It is about runs without panics, in which no step leaves bytes of a destination unspecified (`Exact`). That this is needed is proved in `C101_needs_exact`: after `hex_simd::decode` has failed on `zz41`, the second byte of the destination is as before with AVX2 and `A` with SSE2 (`decode_short`, crates/hex-simd/src/decode.rs:26-51). C102 (`Spec/TreeTwin.lean`) extends C101 to Tree Borrows, on one of the machines or on both.
* Not modelled: timing, code generation, `#[target_feature]` ABI,
  inlining, `std::error::Error` impls (they have no methods), feature-flag plumbing, benches and tests, rayon internals
  (its contract "every chunk is processed exactly once, in any interleaving" is assumed; in C91 and C96 its jobs divide the two slices with `split_at` and `split_at_mut` wherever they like), `std::is_x86_feature_detected!`
  (assumed to report supported features truthfully and constantly).
* `C47_supported` assumes `Coherent cpu` (AVX2 ⇒ SSE4.1 ⇒ SSSE3 ⇒ SSE2) and `Valid b cpu` (the CPU has the features the program was compiled for).

## 3. Plan per property

| id | model | proof |
|---|---|---|
| C01 | base64 encode (fallback + SIMD) | loop invariants by induction; per-lane bit lemma for the SIMD block; generic RFC bit-list spec |
| C02 | base64 `encode` | from the `wp` theorem: final memory equation |
| C03, C04 | encode + decode | decode refines a block decoder, which is proved the exact inverse of the spec encoder |
| C05, C06 | decode, decode_inplace | one loop theorem with hypothesis "different buffers or dst ≤ src in the same buffer" |
| C07 | check | same block decoder |
| C08 | lengths | checked arithmetic, omega |
| C09, C10 | all of the above | corollaries: result equals an ISA-free spec function, no ub/panic |
| C11, C12, C18 | forgiving.rs, ascii.rs | WHATWG spec; whitespace scan and filter lemmas |
| C13, C14, C17 | heap.rs, `*_as_str` | allocation model, Vec/String header model, UTF-8 spec |
| C15 | parallel.rs | interleaving semantics of the chunk programs, any thread count and schedule |
| C16 | parallel.rs | **violated**: negation with a witness, `_partial` for the sequential path |
| C19–C28 | base32 | as base64 |
| C29–C37 | hex | as base64 |
| C38–C42 | uuid | fixed-size blocks: symbolic bytes |
| C50 | uuid ext.rs | fresh uninitialised local; every byte is written before it is read; in any memory by C60 (Props/AnywhereExt.lean) |
| C43–C45 | unicode | loop invariants |
| C46 | swap | **violated** on SSSE3-without-AVX2 CPUs: negation with a witness, `_partial` for the rest |
| C47 | dispatch macro | inductive invariant of the transition system |
| C48 | all dispatch lists | from the no-panic part of the API theorems; **violated** for the swaps on SSSE3 |
| C49 | alsw | finite enumeration over byte × leaked bits for each table, lifted to lanes |
| C51 | unified.rs, all element-wise trait methods | each branch reduced to a lane function on `w`-byte lanes; integer lemmas for wrap/clamp/compare; element spec in `Spec/Lane.lean` |
| C52 | zip/unzip/bswap/swizzle/blend/permute | lane-index arithmetic, per-branch shuffle constants |
| C53 | bitmask, any_zero, all_zero, highbit, mask tests, reductions | lane quantifiers (`allLane`/`anyLane`) against list membership of the vector's bytes |
| C54 | availability of every trait method | table of documented sets transcribed from the doc comments, compared to the branches of the model |
| C55 | ascii.rs case conversion | lane normal form, 256-entry table of the byte formula |
| C56 | simulation.rs vs. trait methods | list-of-bytes functions against `toList` of the vector result |
| C57 | native.rs, isa::detect | closure as a state transformer that sees its target feature; case analysis of configurations |
| C58 | hex-simd raw API | copy loops generalised to `Safe` layouts (other allocation, destination behind, no overlap); effects cell by cell |
| C59 | safe API on slices anywhere | Generic loop lemmas with a no-overlap invariant instead of different allocations (Props/Anywhere.lean) |
| C60 | uuid and unicode API on slices anywhere | No-overlap invariants in the uuid and swap lemmas (Props/AnywhereText.lean) |
| C61 | owned and appended results, source anywhere | Allocation and append lemmas over any memory (Lemmas/RawHeap.lean, Props/AnywhereHeap.lean; without capacity assumptions Props/AppendPanic.lean) |
| C62 | par_encode on slices anywhere | Tasks with explicit read sets, pairwise disjoint and away from the destination (Lemmas/Par.lean, Props/AnywherePar.lean) |
| C63 | Footprint of every function on borrowed slices | Trace semantics (Model/Trace.lean); the run on the memory with only the source initialised has the same trace, and every access is initialised at its end (Lemmas/Footprint.lean); allocations used are read off the program (Uses); slices in one allocation are treated by renaming allocations, the program being the same up to the renaming (Lemmas/Ren*.lean) |
| C64 | Order of encoded strings | First differing bit falls into the first differing group; zero fill is minimal (Lemmas/Order.lean); texts from C61, UUID texts from C50 (Props/UuidOrder.lean) |
| C65 | Processing in pieces | Induction over the pieces (Lemmas/Chunks.lean) on top of C59; texts of whole groups concatenate |
| C66 | Accesses independent of the data | Relational judgement Obl on pairs of programs (Lemmas/Oblivious.lean), one lemma per function, read off as equality or prefix of traces with the results of C58-C60 |
| C67 | Aligned typed accesses | Judgement Acc on all accesses of a program (Lemmas/Aligned.lean), one lemma per loop |
| C68 | Byte order of the target | Native accesses modelled for both orders (Model/Endian.lean); same runs as the main model (Eqv) |
| C69 | is_utf32le and byte order | Loop induction with native reads of either byte order |
| C70 | Scalar classifier | The 256-byte tests evaluated in the kernel, lifted to all bytes and combined with C49 |
| C71 | Relations between variants | Relations between the alphabets lifted to texts, combined with C01, C19, C29, C40 |
| C72 | Forgiving and strict | Strict text is a fixed point of whitespace removal and loses exactly its padding; combined with C04 and C12 |
| C73 | Scalable trait | One contract stated for any width; both implementations shown to satisfy it, with the panicking instruction sets exactly located |
| C74 | Linear work | A budget is carried along the program text; loops by induction on what is left |
| C75 | Sequences of appends | C61 strengthened by where the vector is afterwards; induction over the calls |
| C76 | Interoperation | C61 on each side, with the implementations that C47 allows there |
| C77 | Result types | Each type wraps the box of C61 |
| C78 | Concurrent calls | Each thread's private memory as ghost state; C63 keeps its accesses inside what it borrows |
| C79 | Concurrent calls that allocate | The calls do not depend on allocation numbers (Lemmas/RenHeap.lean), so each thread simulates its run alone under an injective renaming that grows with every allocation (Lemmas/ConcurrentAlloc.lean) |
| C80 | Formatting of UUIDs and errors | What a sequence of writes does to a sink with limited room (`Emits`, Props/Fmt.lean), closed under `?`; `Formatter::pad` emits the padded text, which the options determine uniquely; together with C50 |
| C81 | Threads of many calls | The footprints of the calls add up along the thread's run alone, by induction on the thread; then as for C78 (Props/Scripts.lean) |
| C82 | allocation counts and sizes | `Prog.allocs` over every program; programs that allocate nothing by `Uses`; exact list for each owned function |
| C83 | exactly when calls panic | case analysis over `Call` and `HeapCall` with the exact outcome theorems C59-C61; the byte swaps by `swap_panics` |
| C84 | vsimd helpers | induction over chunks and elements; gcd arithmetic for the largest middle part; a terminal interpreter as spec of the printed table |
| C85 | slice functions with tags and borrow stacks (`Verif/Model/Borrows.lean`, `BorrowCalls.lean`) | simulation of the plain program: kernels are followed with injective tags by the renaming theorem and the footprint theorem C63; frame calculus of loans for reborrows and calls |
| C86 | dispatch (`Verif/Model/Dispatch.lean`) | `Runs.target` for the upper bound, an explicit machine per instruction set for the lower bound |
| C87 | allocating functions with tags, borrow stacks and deallocation (`Verif/Model/BorrowHeap.lean`) | as C85, with a loan for memory the function allocates or frees; the reborrows of boxes and of spare capacity are frames within it |
| C88 | state at a panic, over a model of catch_unwind: the panicking checks come before every store and allocation | C83, bind lemmas for catch_unwind |
| C89 | invariant of all reachable client states over Stacked Borrows: each step from C85, C87, C61, C77 | C85, C87, C83; frame of runs (RunAfter); contents of results |
| C90 | one table of meanings for all calls; forward simulation of clients by programs over plain variables, which are deterministic | C58-C61, C77, C83, C85, C87, C89 |
| C91 | rely-guarantee: each thread changes only bytes of its own part and at most adds readers to the source, and is safe if the others do the same; the section as a whole is then like one call that borrows both slices | Stacked Borrows (C85), C15, C62 |
| C92 | for every byte, the borrow stack has the items of all live references that cover it, each above those of older ones that it was made from; every step keeps this | programs (C89), Stacked Borrows (C85, C87, C91, C98), what calls mean (C90) |
| C93 | slice functions with tags and borrow trees (`Verif/Model/TreeBorrows.lean`, `TreeCalls.lean`) | as C85: repeated accesses through one tag collapse to one, accesses through a descendant look like accesses through the lender to older tags, and the end of a protector is an access that has been made before |
| C94 | allocating functions with tags, borrow trees and deallocation (`Verif/Model/TreeHeap.lean`) | as C87 on top of C93; a state with a deallocated block is compared to the one before with the block put back |
| C95 | programs with references, with borrow trees (`Verif/Model/TreeUse.lean`) | invariant over all steps: every live name may do to its bytes what its type says, and of two references to a byte the later was made from the earlier if that is a `&mut`; steps by C93, C94, C96 and C97 |
| C96 | `par_encode` with threads and borrow trees (`Verif/Model/TreePar.lean`) | rely-guarantee as in C91; invariant of the section: tags made for a byte of the destination are on one path of the tree with active ones above the others, so the access at the end of any protection changes nothing; the section as a whole is then like one call that borrows both slices |
| C97 | `ext.rs` of uuid-simd with borrow trees (`Verif/Model/TreeExt.lean`) | the call on the local variable is one of C93; the tags made for the local variable are made from its owner's, so it may be read and deallocated afterwards; results by C50 anywhere in memory |
| C98 | `ext.rs` of uuid-simd with borrow stacks (`Verif/Model/BorrowExt.lean`) | as C97, from C85: the item of the local variable's owner stays below all items the call pushes, so it may be read and deallocated afterwards |
| C99 | programs with references (C92), `par_encode` (C62, C91), `ext.rs` (C98) | each step with borrow stacks is matched, from C85, C87, C91 and C98, by the step over plain memory, with tags replaced by the allocations they belong to; over plain memory a step has one outcome |
| C100 | programs with references (C92, C95, C99), both aliasing models (C85, C93) | each step with borrow trees is matched, from C93, C94, C96 and C97, by the step over plain memory of C99; the two kinds of worlds have the same references in the same order of creation, so that the same steps are allowed |
| C101 | programs with references (C92, C99), two machines | the effect of each step on lengths, references and bytes is given without the machine, from C90, C92 and C99; equal effects keep two worlds equal |
| C102 | programs with references (C95, C101), two machines, both aliasing models | every run under Tree Borrows is matched step by step, with C99 and C100, by one under Stacked Borrows with the same plain memory; C101 for these |

## 4. Findings in the code

* **A.** `utf16_swap_endianness` / `utf32_swap_endianness` (and in-place versions) dispatch to "ssse3", but
  `u16x8_bswap` / `u32x4_bswap` in vsimd/simd128.rs only have branches for SSE4.1, WASM128 and NEON. On an x86 CPU
  with SSSE3 but without AVX2, a slice of ≥ 16 u16 (≥ 8 u32) elements reaches `unreachable!()` and panics.
  `C48_swap_exact` shows that with run-time detection on x86 these are exactly the CPUs on which it happens.
* **B.** `par_encode` documents `Err` for a short dst, but on the parallel path indexes `dst[..encoded_len]` and panics.
* **C.** `is_utf32le` reads native `u32`s, so on a big-endian target it tests for UTF-32BE (`C69_big`). Its documentation does not say what is
  meant ("TODO: test, bench"); on little-endian targets, the only ones with vector code and in CI, name and behaviour agree.
