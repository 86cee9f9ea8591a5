# Formal model of MeirBon/rtbvh in Lean 4

## 1. Trusted base

* Lean 4.33.0's kernel. No axioms of our own; every theorem depends on at most `propext`, `Classical.choice`,
  `Quot.sound` (section 5). No `native_decide`, no `bv_decide`; concrete witnesses are evaluated by the kernel
  (`decide`, `decide +kernel`).
* The faithfulness of the hand-written model to the Rust source at the pinned commit. Each definition cites file
  and lines, and says where it simplifies. The code was not run.
* Floating point. All code that computes with `f32` is modelled over an arbitrary carrier `F` with `FloatOps F`
  (operations only, no laws). Theorems that use no law hold for *any* behaviour of the float unit, including NaN,
  infinities and excess precision. Theorems that need laws assume `LawfulFloat F` (`Verif/Spec/Lawful.lean`):
  NaN-aware order laws, min/max, monotone rounding of + - * /, and a few sign laws. The assumption is discharged
  twice: for `Rat` (exact arithmetic, `Proofs/ExactLaws.lean`) and for `F32` (`Proofs/F32Laws.lean`), an executable
  model of IEEE-754 binary32 (signed zeros, infinities, one NaN, subnormals, round-to-nearest-even) defined on
  natural numbers in `Model/F32.lean`. NaN payloads are not modelled; `f32::min/max` and the SIMD `min/max` of glam
  are two different operations of `FloatOps` (`min`/`vmin`). The number model is itself checked: `Props/Rounding.lean`
  proves that +, -, *, / on finite numbers, decimal literals and `as f32` return the IEEE `roundTiesToEven` of the exact
  rational result as `Spec/Rounding.lean` states it (nearest, ties to even, overflow from `2^128 - 2^103` on), that the
  comparisons compare exact values, and lists the special cases; what remains trusted is that Rust's `f32` is IEEE-754.
* Modelled as parameters, universally quantified in the theorems: the user's primitives (`center`, `aabb`, vertices,
  the `split` method), the user's per-primitive callback between two iterator steps, the worker-thread schedule, the
  number of CPUs, the arrival order of `par_bridge`, the result of `sort_by` with a comparator that is no total order.

## 2. Model conventions

* arrays/Vec -> `List`; out-of-range index, `unwrap` of `None`, arithmetic underflow = `none` (panic).
  `get_unchecked` out of range is also `none` (UB reported as failure); the spatial builder and the Mbvh iterators
  distinguish a panic from an unchecked out-of-bounds access.
* `i32` fields are `Int`s, `as i32`/`as u32` casts wrap explicitly. `usize` is `Nat`; the sizes at which node links no
  longer fit an `i32` are excluded by hypotheses (`n <= 2^30` for the binned builder, `2^29` for LOC, reference limit
  below `2^30` for the spatial builder (in single precision that is every scene of up to six hundred million primitives: `spatial_links_fit`), lengths below `2^31` for validate/refit/Mbvh).
* loops -> structural recursion / fold; `loop {}` iterators -> a `step` function plus fuel, theorems state that for
  every sufficiently large fuel the result is the specification's one.
* concurrency -> nondeterministic small-step relation over `{nodes, counter, pending tasks}`; a schedule is the list of
  choices of which pending task makes the next atomic step. A task's run is two atomic steps (its one operation on a
  shared counter, then its writes), which are the only points where tasks interact. C79 justifies this: a second model
  (Model/Fine), in which steps overlap and a task at work may leave any value in the locations it owns, reaches nothing
  more. `C50_binned_spawner` links the real
  `TaskSpawner` (worker pool, queue threshold) to these schedules. Atomics are sequentially consistent (the code uses
  `SeqCst`); weak memory is out of scope.

## 3. What is modelled

| Rust file | Lean modules | modelled | not modelled |
|-----------|--------------|----------|--------------|
| aabb.rs | Model/Aabb, Model/Vec | every method of `Aabb`, the macro `aabb!`, `transformed` with any `Mat4` (the code drops the fourth row, so four columns of three rows model it) | Display, Index |
| ray.rs | Model/Ray | `Ray`, `RayPacket4` | - |
| bvh_node.rs, builders/mod.rs | Model/Node, Model/Alloc, Model/Iter | node encoding, `AtomicNodeStack`, `sort_nodes` | - |
| bvh.rs | Model/Builder, BvhOps, Mbvh | the three constructors, `validate`, `refit`, `bounds`, `Mbvh::construct`, `construct_from_raw` | serde, Display |
| iter.rs, iter_indices.rs | Model/Iter, Model/Mbvh, Model/Next | all eight iterators, as `for` loops and call by call | the `transmute` of the `&mut Ray` lifetimes: a client may hold several mutable references to one ray; the model treats them as that one ray |
| mbvh_node.rs | Model/Mbvh | `set_bounds`, `intersect`, `intersect4`, `merge_nodes` | commented-out code |
| morton.rs | Model/Morton | all; the rayon sort by its stable-sort specification | - |
| builders/binned_sah.rs | Model/Binned, Model/Impure | all of the build; Model/Impure again, with a `center()` that answers anew at every call | - |
| builders/locb.rs | Model/Locb, Model/LocbPar | all of the build, sequentially and (Model/LocbPar) with the iterations of the two parallel loops in any order; the two overlapping aux slices are one list | - |
| builders/spatial_sah.rs | Model/Spatial, Model/Triangle | all of the build, `split`, `intersect`, `intersect4` | - |
| utils.rs | Model/Utils, Model/Spawner, Model/SpatialSpawner, Model/Unwind | `partition`, `prefix_sum`, `move_backward`, `round_up_log2`, `TaskSpawner`, also when tasks panic (C105) | `shuffle_prims` (dead code), `UnsafeSliceWrapper` accessors (inlined) |
| debug assertions | Model/Debug | the functions with `debug_assert!`s or integer subtractions a debug build checks, as explicit failures (C87); all other model files are of a release build | asserts that repeat what the release model already reports as a failure (utils.rs 43-44, 80, 132, 166-167, bvh.rs 212) |
| rtbvh_ffi/src/lib.rs | Model/Ffi, Model/FfiCreate, Model/FfiConc, Model/Layout | manager with its four locks and concurrent callers, conversions, layout and alignment of the exported structs, `RTTriangleWrapper`, create/refit/intersect/free, queries that overlap refit and free | panics across `extern "C"` (the locks are those of parking_lot, which do not poison) |

Of `shared/` and `examples/` the camera, the averager, the visualizer's drawing loops (`Model/Example.lean`) and the benchmark's
tracing loops (`Model/Batch.lean`) are modelled
(`sqrt` and `tan` are parameters). Not modelled at all: feature-flag no-op variants,
`wasm_polyfill`, window handling and the other examples, allocation failure, the OS thread
pool itself, performance.

Layout: `Verif/Model` (the code), `Verif/Spec` (vocabulary of the statements), `Verif/Proofs`, `Verif/Props` (one theorem
per property or part, named `Cnn_...`, with examples that meet the hypotheses).

## 4. Plan per property

| id | model | proof |
|----|-------|-------|
| C01 | `Builder` checks | case analysis |
| C02-C05 | binned builder: pure task function, concurrent state machine over pending tasks, sequential tree | invariant: the node array with pending tasks denotes the pure tree; measure = remaining tree size |
| C06 | same | false: negation with coincident centres; partial: leaf is small, or split rejected, or depth limit |
| C07 | same + box laws | false in the median fallback (left box grown over the wrong count): negation with a witness; partial: right children always, and the exact cause of a miss (`Misplaced` in Spec/Sah.lean): a primitive no node misplaces lies in every box above it |
| C08 | `validate`, `traverse_check` | induction over the tree |
| C09 | C03, C11 + C08 | corollaries; spatial builder: negation (C42), hence partial |
| C10-C13 | `cluster`, `build` of locb | loop invariants; progress by minimal-distance argument; the chunked rotating matrix computes the plain minimum |
| C14-C16, C58 | morton functions on `BitVec 32`/Nat | bit extensionality; order preservation; floor of the exact cell |
| C17 | `get_sorted_indices` | stable-sort spec: sorted permutation, ties in index order |
| C18, C19 | `refit` | reverse induction over node indices; children lie behind parents by invariants of the three builds; C19 is false: after refit every node is a zero-count leaf |
| C20-C25 | the four Bvh iterators | refinement: fuel-run of the stack machine = recursive `visit` over the unfolded tree |
| C26-C30, C32, C56 | `merge_nodes`, Mbvh iterators | unfolding relation from binary tree to quad tree; same refinement |
| C31, C32 | traversal + closest-hit callback | exact arithmetic; C20/C28 + C35 + fold-min lemma |
| C33-C37, C44, C55, C66 | `Aabb` | lattice laws from min/max laws; rounding monotonicity; C37 false for single rays (negative zero), true for packets by cases on the signs of zeros |
| C38-C41 | triangle | algebra over a linear ordered field; C40, C41 false as stated |
| C42, C59-C61 | spatial builder as concurrent machine | invariant: reference ranges and leaf storage; C42, C61 false with witness scenes; C42: `Proofs/SpatialMove` shows that a move after a cut that overwrites references is the only cause of losses; C61: `Spec/SpatialFault` lists the causes of faults, `Proofs/SpatialFault` proves the list complete (fault invariant of the machine) |
| C43, C48 | records | structural equality |
| C45 | node integer encoding | `Int` wrap lemmas |
| C46, C47, C49 | FFI handle manager as history machine; intersect loop; vertex buffer addressing | induction over histories; C49 false |
| C50 | TaskSpawner | nondeterministic machine with latch counter |
| C51 | atomic counter | trace induction, for every buffer length; an even length makes the last pair overrun |
| C52, C53 | loops in utils.rs | loop invariant |
| C54 | iterators on empty data | unfolding |
| C57 | `boxes` with an arbitrary arrival order of the bridge | false: witness order; equal when the order is the identity, or every arriving primitive has the box of the one whose place it takes (iff for the gathered list) |
| C62 | builders + traversal | depth < number of leaves; false for larger scenes (witness) |
| C63 | builders + traversal | composition of C11, C12, C21, C31 and their Mbvh versions |
| C64 | `sort_nodes` | false: witness; the far child is popped first |
| C65 | `Ray::reflect`, `get_point_at` | algebra in exact arithmetic |
| C67 | binned `find_split` | the sweep computes the minimum over the bin boundaries; induction over the built tree gives the rule at every node |
| C68 | builder + traversal + `SpatialTriangle::intersect` | compose C63 with C38/C39: the triangle test is a closest-hit callback whose hits lie in the boxes |
| C69 | traversal with a breaking caller | a run that was not broken equals the run of the caller that never breaks, so completeness (C21/C28) applies; induction over the recursive visit for the broken case |
| C70 | packet traversal + `intersect4` | completeness C23/C28 against the final packet, folding of the per-lane closest-hit callback; strictness of the packet test met by the builders' padding (`C12_locb_padded`, `C07_binned_padded_partial`) |
| C71 | packet traversal vs single rays | exact characterisation of the packet box test; refutation by evaluating a binary32 scene |
| C72 | Relation RoundTo/Clusters on rows of trees (Spec/LocRule). Proof: searchAll computes the first minimum of the window (nb_spec), round_spec gives the trees after a round explicitly, induction over rounds. |
| C73 | Cells and `Uses` in Spec/Race; disjointness from the footprint part of the refinement invariants (Den, SDen), write frame and read frame of taskStep / spatialTaskStep by case analysis. |
| C74 | Model/LocbPar: same code with the loops taking the iterations in the order of an arbitrary permutation per round; adjacent iterations commute, hence any permutation gives the sequential result; lifted through rounds with LocInv. |
| C75 | Spec/SpatialRule.lean gives the rule as an inductive relation on trees (best object cut, clip sides, share of room, shift); Proofs/SpatialCut, SpatialClip, SpatialRule show each function returns what the rule says and that the schedule-free tree of the build obeys it. |
| C76 | CutCovers in Spec/SpatialRule.lean; induction over the rule of C75 with NaN-free references; the refutations are evaluated builds in binary32. |
| C77 | Spec/SpatialPlane.lean describes slabs, parts, costs and passes; Proofs/SpatialPlane shows the bins are the slabs' unions and the sweep takes the first cheapest; uniqueness makes the rule an iff; the rule of C75 uses this specification |
| C78 | refutation by evaluation in the binary32 model against areaCost of Spec/SpatialPlane |
| C79 | fine-grained transition system over tasks in the middle of a step with arbitrary intermediate contents (Model/Fine); simulation by whole steps, from C73; `C79_*_ends`: every event but a write of half-done work lowers twice the steps left less the tasks at work, so their number is bounded, and one is possible while tasks are left |
| C80 | Model/FfiCreate.lean composes the C entry points over raw buffers with the builders; the proof composes C01/C02/C10 (build), C46 (handles), C47 (loops of intersect*) and C63 (build + query) |
| C81 | Model/FfiCreate.lean; composed from C01, C59, C60, C46, C47; refuted on two packed triangles in F32; Props/FfiSpatialHits.lean composes C46/C47 with C97 for ids listed once; `C81_packet_hits_partial`, `C81_mbvh_hits_partial`: a query whose callback lowers `*t` calls back with everything a query with the final `*t` and an idle callback does (`Proofs/FfiReplay.lean`) |
| C82 | `Model/FfiConc.lean` gives every call of the interface as lock-level steps, `Spec/FfiConc.lean` says what a sequential explanation is. Invariant `FfiInv` (Proofs/FfiConc): memory with unfinished refits undone equals the sequential manager after the calls that have passed their commit step |
| C83 | Locks are taken in the order structures, element, m_structures, element (`move_locks`); the call that waits for the lock of highest rank, or its holder, can go on. Step counting by a measure on phases |
| C84 | Queries in `Model/FfiConc.lean` read the buffers behind the raw pointers without locks; combined with C82 and C46 for the positive part, explicit runs for the negations |
| C85 | `Model/Layout.lean`: the repr(C) layout algorithm, the types' field lists, the load addresses; arithmetic |
| C86 | guards of the iterator constructors (Model/Iter); direct from the definitions, with NaN stated lane by lane; refutation by evaluation in F32 |
| C87 | Model/Debug is the code with `debug_assert!`s (and the integer subtractions a debug build checks) as explicit failures; each debug function is proved equal to the release function on all reachable states, with the invariants of C02, C10 and C59. |
| C88 | rounding monotonicity of a matrix row; witness in binary32 for the refutation |
| C89 | `Model/Example.lean`: both generators written out op by op; lane equality by computation, chunk mapping by arithmetic, geometry in `Rat` by `ring`/`field_simp`. |
| C90 | Invariant over the history of samples (window of the values array), one lemma for the shifting loop. |
| C91 | `Spec/Shown.lean` says what should be drawn; folding lemma for the noted primitive, then C31/C32/C70 for both kinds of structure. |
| C92 | `Spec/Reach.lean`: a path of boxes containing the hit point to a leaf listing the primitive. C76_no_harm_covers gives the path, C31/C32 redone with paths instead of containment; the refutation is an evaluated build and query in binary32. |
| C93 | `Spec/Trace.lean`: a plain loop over all triangles. Both the loop and the traversal are folds of a test whose answer does not depend on the current `t`; two folds over lists with the same accepted members end at the same parameter; C20/C23/C28 say what is offered. Refutations are evaluated builds and queries in binary32. `Props/TraceExact.lean`: C95/C96 turn the condition on the tests into `NoFalseHits`; `Props/TraceOrder.lean` does so for packets and the `Mbvh` (`HitsInOrder`, `HitsInOrder4`) |
| C94 | `Model/Next`: `next()` as a function of its own and sessions of calls with a client with memory; `Spec/Next`: `FindsRay`, `Fused`, `LikeALoop`. Proved by running session and loop side by side: since every id occurs once, the client's reaction to an id is a function of the id along the run, so a body without memory can imitate it (`session_main`); the fuse property by the shape of a round that says `None` |
| C95 | F32 model; relative-error lemmas for every rounding operation (`Proofs/RelError`), one axis of the slab test against exact rational arithmetic (`Proofs/Watertight.axis`), lifted to the tests and the traversals; counterexamples at -0.0 and far out by kernel computation |
| C96 | as C95, with the padded containment of `C07_miss_cause_partial` for primitives that are not misplaced |
| C97 | `Props/SpatialRounded.lean`: a computed parameter in the computed interval of every slab (`Spec/Thru.lean`) is a `BoxFilter` that box cuts keep, so `spared_covers` gives a path to a leaf; packets test strictly and need two adjacent binary32 numbers (`F32.next`). Refuted without a margin by a computed example (`C97_hit_lost`). |
| C98 | Batch model (Model/Batch.lean): shared buffer, one task per chunk, a step = making the iterator / one round of next / body reading / storing the ray. Invariant per task over its range; step count by counting each task's steps in the schedule; isolation by simulation of the run without the task. Non-vacuity: five rays in chunks of two over a built mesh, three tasks taking turns (binary32). |
| C99 | `Props/FfiWatertight.lean`: the created hierarchy is padded around the caller's boxes (`created_padded`), so the completeness lemmas of the C interface apply with the padded box, which C95's analysis shows to pass every test on the way |
| C100 | `Props/SpatialSpine.lean`, `Proofs/SpatialSpine.lean`: by the rule of C75 the left child gets a view with no spare room, so by induction every cut below it is an object split or a clip that adds no reference, and no move happens (`SpatialRule.no_room`, `ids_no_room`); a primitive absent from the right part stays absent there (`SpatialRule.absent`), so it is spared and C42/C76/C92/C97 apply to it. |
| C101 | `Model/Impure.lean`: the binned build with the answer of every single `center()` call supplied by the history (`Answers`: one per primitive and axis while binning, one per primitive while partitioning, anew for every task). Invariant `Grow` (`Proofs/Impure.lean`): the finished part is a tree over consecutive ranges, pending tasks own disjoint ranges and nodes, allocated pairs fit the buffer because every split leaves both sides non-empty. `C101_any_center`, `C101_root_bounds`; `C101_pure_decides`: truthful answers give the decisions of the pure model. `C101_pure_same` (`Proofs/ImpurePure.lean`): simulation `Twin` of the two models; with truthful answers both give the same result under the same schedule. |
| C102 | `Props/Pruning.lean`, `Props/FfiPruning.lean`: the sequence of ids of an arbitrary loop lies, as a sublist, between the sequences of idle loops with the last and the first ray, by induction over the tree (`Proofs/Sublist.lean`) and the monotonicity of the box tests in `t` |
| C103 | `refit` leaves both link fields of every node zero; a loop over such nodes takes at most one node (two steps), over such quad nodes four slots, and the conversions make one blank quad node |
| C104 | sums below `2^24` units are exact; above, halving a rounded sum is exact and keeps the significand, so the nearest and the even conditions carry over from the sum to the midpoint |
| C105 | Model/Unwind: the threads of the spawner with unwinding (stack and handles dropped), join of a panicked thread, outcome of the scope; invariant: every thread has one owner with a smaller number or has been abandoned, every panic has a cause; lost tasks = a pool with tasks dropped, reusing C50's pool and C60's confluence; a simulation shows that what a lost task leaves in its own node and slice is never read by another |
| C106 | `Aabb`, `BvhNode` | folds of `grow` keep the words; the rest by computation |
| C107 | packet iterators (Model/Iter, Model/Mbvh), Spec/Lanes | a box passed for the copies is passed for the packet; the sublist argument of C102 for quads, the counts of C23 for `Bvh` |
| C108 | `Camera.setScreen` (Model/Example), Spec/Camera | ring arithmetic in Rat; `tan` and pi are parameters |
| C109 | invariants of `refitLoop`: nodes at and above the index agree (stale boxes below do not matter) or are hollow (links all zero); Props/RefitAgain.lean; false from the second call on because the first wipes the links (finding 28) |
| C110 | `rounds` of the denoted tree is nodes plus stored ids (quad: five per quad node), compact builds have at most 2n-1 nodes; Props/Work.lean |

## 5. Axioms

`#print axioms` on every theorem listed in MANIFEST.json reports a subset of `[propext, Classical.choice, Quot.sound]`.
`tools/axioms.sh` prints the list.

## 6. Disagreements between code and expected behaviour

1. `Bvh::refit` (src/bvh.rs 176-205) stores a fresh `Aabb::new()`-based box into each node; the count and left_first
   fields live inside the box (`extra1`, `extra2`) and are overwritten with 0.
2. Binned SAH median fallback (binned_sah.rs 194-235) grows the left box over `best_splits[best_axis].count`
   primitives instead of `split_index`.
3. `primitives_per_leaf` is not enforced.
4. Traversal stacks hold 32 entries while builders allow depth 64: Bvh iterators panic, Mbvh iterators write out of
   bounds (unchecked).
5. `BvhIterator`/`BvhPacketIterator` loop forever when `primitives.get(id)` is `None`.
6. `MbvhNode::intersect`'s sorting network ends with (2,3) instead of (1,2).
7. A direction component `-0.0` makes the slab test use the wrong slab (sign 0 but inverse -inf).
8. `SpatialTriangle::split` interpolates with `a * t * (b - a)`.
9. `SpatialSahBuildTask::allocate_children` loses references when it shifts the right half backward;
   `apply_spatial_split` sets an absolute index to `left_count / 2` and panics; boxes with `min > max` make it write
   outside its buffers.
   A move is harmful exactly if the number of slots given to the left child is positive and less than the length of
   the right part; nothing else loses primitives (C42_no_harm_keeps_partial, C76_no_harm_covers_partial).
10. FFI `RTTriangleWrapper::aabb` divides the vertex stride twice.
11. `intersect4` of the triangle uses other epsilons and comparisons than `intersect`.
12. Epsilon padding is absorbed by rounding above 2048 (exactly: `f32_pad_strict`, `f32_pad_absorbed`), so strict
    `contains` fails there for every scene (C55_*_far).
13. `aabbs: None` collects boxes with `par_bridge().map(..).collect()`, which does not keep their order (C57).
14. LOC panics when all merged half areas overflow `f32`.
15. `sort_nodes` pushes the nearer child first, so the farther one is visited first.
16. `all_corners` recomputes six corners as `min + (max - min)`, which rounding can leave short of `max`; `transformed`
    then loses part of the contents (C88).
17. The C interface: queries take no lock, so a concurrent `refit` is read half done and a concurrent `free_bvh` leaves
    them reading freed memory (C84); `create_spatial_Bvh` checks none of its pointers (C81); caller buffers of
    `RTAabb` (alignment 4) are reinterpreted as 16-aligned `Aabb`, and `MbvhNode`'s aligned SSE loads need the same (C85).
18. The `Mbvh` iterators lack the NaN guard of the `Bvh` ones (C86), and the guards against an empty structure (C54).
19. `Mbvh::construct_from_raw` on an empty slice panics in debug builds only (C87).
20. The `wasm_support` code paths are not reachable: the feature is not declared in Cargo.toml and the code does not
    compile (`if let Some(left, right)`), so they are not modelled.
21. The spatial builder pads the boxes of inner nodes but not those of leaves; packet traversal (strict test) therefore
    misses axis-parallel triangles in tight boxes that single rays find (C92_packet_misses_flat; the visualizer's packet
    modes use this builder).
    Single rays lose exact hits too, at ordinary scale, when rounding in the slab products goes the wrong way
    (`C97_hit_lost`); a margin of 1e-4 in the boxes given to the builder cures it (`C97_margin_partial`).
22. In f32 the hierarchy can change the answer of a mesh query: the box tests and the triangle test round differently, and
    the padding of 1e-4 is absorbed above 2048 (C93_real_hit_missed, C93_sliver_missed).
23. `allocate_children` gives the left item the range `begin..right_begin` with `split_end = right_begin`, so the left child
    of a cut never has room for clipped references: spatial splits duplicate only along the right spine (C100), although
    the comment announces space for both children and the right part is moved to make it.
24. `allocate_children` converts the free room to `f32` before taking the left child's share: above 2^24 the conversion can
    round up, and if the right child's box has no area the share exceeds the room by one (`C61_room_rounds_up`), so
    `move_backward` would write past the range.  The room at the root is itself a rounded number, so this needs more than
    22 million primitives and a spatial split above; it is shown for the node's arithmetic, not for a whole scene.
25. `utils::partition(slice, range, check)` partitions the front of the slice, not the range: for a range that does not start
    at 0 the elements that satisfy the check leave the range (`C52_partition_range_not_in_place`). The crate only calls it
    with `0..len`. `Aabb::transform` zeroes the payload words of its box (C106), so it must not be called on a node's bounds.
26. One NaN lane silences a whole packet over a `Bvh` (`C107_nan_lane_silences`): its iterators refuse a packet with a NaN
    anywhere, although the three other lanes alone would be offered primitives. The 4-wide iterators do not.
27. The example camera does not normalise `direction.cross(Y)` and keeps the screen upright: the horizontal field of view
    shrinks with the pitch (`C108_looking_up_narrows`) and vanishes when it looks straight up (`C108_straight_up`).
28. `refit` can be called once: the second call on the same structure, with any boxes, turns every box into the inverted
    empty one (`C109_second_refit`), so `bounds()` of an animated structure contains nothing from the second frame on.
