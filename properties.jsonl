{"id": "C01", "title": "Builder error contract", "statement": "For each of construct_binned_sah, construct_locally_ordered_clustered and construct_spatial_sah: with no primitives the result is Err(NoPrimitives), whatever the aabbs; with aabbs given whose length differs from a non-empty primitive list the result is Err(InequalAabbsAndPrimitives(#aabbs, #primitives)); in every other case the constructor does not return an error.", "quantifier": "all primitive lists, all optional aabb lists, all leaf-size settings, all three constructors", "why_tests_cant": "the error decision must be right for every pair of lengths; a test samples a few", "anchors": ["src/bvh.rs:Builder::construct_spatial_sah", "src/bvh.rs:Builder::construct_binned_sah", "src/bvh.rs:Builder::construct_locally_ordered_clustered", "src/bvh.rs:BuildError"]}
{"id": "C02", "title": "Binned SAH build completes under every thread schedule", "statement": "For every non-empty scene (n primitives) construct_binned_sah terminates without panic whatever order the worker threads run the pending tasks in: the pre-allocated buffer of 2n-1 nodes is never exhausted, the build always finishes after at most 3n-2 atomic steps of tasks (a leaf task makes one, a splitting task two), and the returned BVH has an odd number of nodes, at least 1 and at most 2n-1.", "quantifier": "all scenes of any size, all values returned by centers/aabbs (NaN and infinities included), all schedules of the build tasks", "why_tests_cant": "panic freedom under every interleaving and every float outcome cannot be sampled", "anchors": ["src/builders/binned_sah.rs:BinnedSahBuildTask::run", "src/builders/binned_sah.rs:BinnedSahBuilder::build", "src/builders/mod.rs:AtomicNodeStack::allocate", "src/utils.rs:TaskSpawner::run_task"]}
{"id": "C03", "title": "Binned SAH: every primitive is in exactly one leaf", "statement": "After construct_binned_sah on n primitives, indices() is a permutation of 0..n and the leaves of the returned tree cover it without gap or overlap, so that every primitive id occurs in exactly one leaf, exactly once.", "quantifier": "all scenes of any size, all float values including NaN, all schedules", "why_tests_cant": "a lost or duplicated primitive may need one particular combination of bin values; tests sample scenes", "anchors": ["src/builders/binned_sah.rs:BinnedSahBuildTask::run", "src/utils.rs:partition", "src/bvh.rs:Bvh::indices"]}
{"id": "C04", "title": "Binned SAH result does not depend on the thread schedule", "statement": "For one scene whose aabbs are given (with aabbs = None the boxes are collected in arrival order, see C57), two complete builds under any two schedules return the same primitive index array and the same tree (same bounds, same leaf ranges, same left/right structure); only the numbering of the node array may differ.", "quantifier": "all scenes, all pairs of schedules", "why_tests_cant": "schedules cannot be enumerated by a test", "anchors": ["src/builders/binned_sah.rs:BinnedSahBuildTask::run", "src/builders/mod.rs:AtomicNodeStack::allocate", "src/utils.rs:TaskSpawner::run_task"]}
{"id": "C05", "title": "Binned SAH tree depth is at most 64", "statement": "No leaf of a tree built by construct_binned_sah is deeper than 64 edges below the root, and no build task with depth above 64 is ever created.", "quantifier": "all scenes, all schedules", "why_tests_cant": "worst-case depth is only reached by adversarial scenes", "anchors": ["src/builders/binned_sah.rs:BinnedSahBuildTask::run", "src/builders/binned_sah.rs:BinnedSahBuilder::new", "src/utils.rs:TaskSpawner::run_task"]}
{"id": "C06", "title": "Binned SAH respects primitives_per_leaf", "statement": "primitives_per_leaf is documented as the maximum number of primitives that can be stored in a leaf node: no leaf of a BVH built by construct_binned_sah holds more than primitives_per_leaf primitives (1 when not given).", "quantifier": "all scenes and all leaf-size settings", "why_tests_cant": "needs every scene; violated only by scenes such as coincident centers", "anchors": ["src/bvh.rs:Builder::primitives_per_leaf", "src/builders/binned_sah.rs:BinnedSahBuildTask::run"]}
{"id": "C07", "title": "Binned SAH node bounds contain their primitives", "statement": "For given aabbs (see C57 for aabbs = None), every node of a BVH built by construct_binned_sah has bounds that contain the AABB of every primitive stored below that node.", "quantifier": "all scenes with numeric (non-NaN) boxes, all nodes, all schedules", "why_tests_cant": "one mis-sized box in one branch of the split logic makes rays miss geometry; tests only check the root bounds", "anchors": ["src/builders/binned_sah.rs:BinnedSahBuildTask::run", "src/builders/binned_sah.rs:BinnedSahBuildTask::find_split", "src/aabb.rs:Aabb::grow_bb"]}
{"id": "C08", "title": "validate is exact", "statement": "On a well-formed BVH Bvh::validate(k) returns true exactly when every primitive id below k occurs in a leaf reachable from the root, and it does not panic when every reachable id is below k.", "quantifier": "all well-formed BVHs, all k", "why_tests_cant": "both directions over all trees", "anchors": ["src/bvh.rs:Bvh::validate", "src/bvh.rs:Bvh::traverse_check"]}
{"id": "C09", "title": "Built BVHs validate", "statement": "For every non-empty scene the BVH returned by construct_binned_sah, construct_locally_ordered_clustered or construct_spatial_sah satisfies validate(number of primitives) == true.", "quantifier": "all scenes, all three builders, all schedules", "why_tests_cant": "the shipped tests validate one teapot", "anchors": ["src/bvh.rs:Bvh::validate", "src/builders/binned_sah.rs:BinnedSahBuilder::build", "src/builders/locb.rs:LocallyOrderedClusteringBuilder::build", "src/builders/spatial_sah.rs:SpatialSahBuilder::build"]}
{"id": "C10", "title": "LOC clustering always makes progress and never panics", "statement": "construct_locally_ordered_clustered terminates without panic for every scene of n primitives whose pairwise merged half-areas are numbers below f32::MAX: every clustering round merges at least one pair, so at most n-1 rounds run, all index arithmetic stays in bounds and no subtraction underflows.", "quantifier": "all scenes of any size satisfying the area condition, all numbers of CPUs", "why_tests_cant": "progress depends on tie-breaking between equal distances for every distance matrix", "anchors": ["src/builders/locb.rs:LocallyOrderedClusteringBuilder::cluster", "src/builders/locb.rs:LocallyOrderedClusteringBuilder::build", "src/builders/locb.rs:LocallyOrderedClusteringBuilder::search_range"]}
{"id": "C11", "title": "LOC build: one leaf per primitive", "statement": "For n >= 3 primitives construct_locally_ordered_clustered returns exactly 2n-1 nodes forming a binary tree rooted at node 0 in which every one of the n leaves holds exactly one primitive and every primitive id occurs in exactly one leaf; for n <= 2 it returns a single leaf holding all primitives.", "quantifier": "all scenes of any size satisfying the area condition", "why_tests_cant": "nodes are shuffled between two buffers in every round; correctness needs an invariant over all rounds", "anchors": ["src/builders/locb.rs:LocallyOrderedClusteringBuilder::build", "src/builders/locb.rs:LocallyOrderedClusteringBuilder::cluster"]}
{"id": "C12", "title": "LOC node bounds contain their primitives", "statement": "For given aabbs (see C57 for aabbs = None), every node of a BVH built by construct_locally_ordered_clustered has bounds that contain the AABB of every primitive stored below it.", "quantifier": "all scenes with numeric boxes, all nodes", "why_tests_cant": "all nodes of all scenes; tests only check the root", "anchors": ["src/builders/locb.rs:LocallyOrderedClusteringBuilder::cluster", "src/builders/locb.rs:LocallyOrderedClusteringBuilder::build", "src/aabb.rs:Aabb::union_of"]}
{"id": "C13", "title": "LOC result does not depend on the number of CPUs", "statement": "For given aabbs (see C57 for aabbs = None), the BVH returned by construct_locally_ordered_clustered is the same whatever num_cpus::get() returns (the per-thread chunking and the rotating distance matrix do not influence which neighbour is chosen).", "quantifier": "all scenes, all positive CPU counts", "why_tests_cant": "a test runs on one machine with one CPU count", "anchors": ["src/builders/locb.rs:LocallyOrderedClusteringBuilder::cluster", "src/utils.rs:move_backward"]}
{"id": "C14", "title": "morton_split spaces bits by two zeros", "statement": "For every u32 x, bit 3k of morton_split(x) equals bit k of x for every k <= 10, and every other bit of the result is 0.", "quantifier": "all 2^32 inputs", "why_tests_cant": "tests check four powers of two", "anchors": ["src/morton.rs:morton_split", "src/utils.rs:round_up_log2"]}
{"id": "C15", "title": "Morton codes are injective and monotone on the grid", "statement": "On grid coordinates below 1024 MortonEncoder::morton_encode is injective, stays below 2^30, and is monotone in each coordinate: increasing any coordinates never decreases the code.", "quantifier": "all triples (pairs of triples) of grid coordinates", "why_tests_cant": "2^60 pairs", "anchors": ["src/morton.rs:MortonEncoder::morton_encode", "src/morton.rs:morton_split"]}
{"id": "C16", "title": "MortonEncoder::encode is total and stays on the grid", "statement": "MortonEncoder::encode never panics and returns a code below 2^30 for every point and every encoder built with the maximal grid, whatever the float values (NaN, infinities and points outside the box included).", "quantifier": "all points, all boxes, all float values", "why_tests_cant": "float corner cases are endless", "anchors": ["src/morton.rs:MortonEncoder::encode", "src/morton.rs:MortonEncoder::new"]}
{"id": "C17", "title": "get_sorted_indices is a stable sort", "statement": "MortonEncoder::get_sorted_indices returns a permutation of 0..n whose Morton codes are non-decreasing and which keeps the input order between primitives with equal codes, together with the code of every primitive in input order.", "quantifier": "all primitive lists of any size", "why_tests_cant": "all lists", "anchors": ["src/morton.rs:MortonEncoder::get_sorted_indices"]}
{"id": "C18", "title": "refit recomputes containing bounds", "statement": "After Bvh::refit(new_aabbs) on a BVH whose children have larger indices than their parents, every node's min/max contain the new AABB of every primitive that was below that node before the call.", "quantifier": "all well-formed BVHs, all new numeric boxes", "why_tests_cant": "all trees and boxes", "anchors": ["src/bvh.rs:Bvh::refit", "src/aabb.rs:Aabb::grow_bb", "src/aabb.rs:Aabb::offset_by"]}
{"id": "C19", "title": "refit keeps the tree usable", "statement": "Bvh::refit changes only bounds: leaf/interior structure, leaf ranges and child links are unchanged, so the refitted BVH still validates and still yields its primitives when traversed.", "quantifier": "all well-formed BVHs, all new boxes", "why_tests_cant": "no shipped test refits", "anchors": ["src/bvh.rs:Bvh::refit", "src/bvh_node.rs:BvhNode"]}
{"id": "C20", "title": "Ray traversal yields exactly the reachable leaves", "statement": "Iterating Bvh::traverse_iter_indices with a ray terminates and yields, each exactly once per occurrence in a leaf, exactly the primitive ids of the leaves all of whose non-root ancestors-or-self pass the ray/box test, for every BVH of depth at most 31 and every caller that changes only ray.t between items.", "quantifier": "all well-formed BVHs of depth <= 31, all rays (NaN-free origin and direction), all caller behaviours on t", "why_tests_cant": "all trees, rays and interactive callers", "anchors": ["src/iter_indices.rs:BvhIndexIterator::next", "src/bvh_node.rs:BvhNode::sort_nodes", "src/aabb.rs:Aabb::intersect"]}
{"id": "C21", "title": "Ray traversal never misses a hit box", "statement": "If every node's bounds contain the boxes of the primitives below it, then traversing with a ray yields every primitive whose own box passes the library's ray/box test, under real floating-point rounding (no exact-arithmetic assumption), for every ray whose slab products are not NaN and whose sign bits agree with its reciprocals.", "quantifier": "all BVHs with containing bounds and depth <= 31, all primitives, all rays without NaN in the products the box test forms (0 * inf arises only for a ray parallel to and exactly in a face plane; see C95 for those) and without -0.0 direction components (see C37)", "why_tests_cant": "rounding behaviour over all floats", "anchors": ["src/aabb.rs:Aabb::intersect", "src/iter_indices.rs:BvhIndexIterator::next"]}
{"id": "C22", "title": "Traversal stack limit", "statement": "The 32-entry traversal stack never overflows on BVHs of depth at most 31, and the bound is tight: there is a BVH of depth 32 on which traversal panics, so trees within the builders' depth limit of 64 are not all traversable.", "quantifier": "all BVHs by depth", "why_tests_cant": "depth-32 trees do not occur in the test scene", "anchors": ["src/iter.rs:BvhIterator", "src/iter_indices.rs:BvhIndexIterator", "src/bvh_node.rs:BvhNode::sort_nodes", "src/builders/binned_sah.rs:BinnedSahBuilder::new"]}
{"id": "C23", "title": "Packet traversal yields exactly the reachable leaves and misses no lane", "statement": "Traversing a BVH of depth at most 31 with a 4-ray packet terminates and yields, when bounds contain their primitives, every primitive whose valid box at least one lane hits at that lane's final t; every yielded id comes from a leaf and no leaf is visited twice.", "quantifier": "all BVHs of depth <= 31, all packets, all lanes without NaN in the products the box test forms, all callers that only lower t", "why_tests_cant": "all packets and trees", "anchors": ["src/iter_indices.rs:BvhPacketIndexIterator::next", "src/iter.rs:BvhPacketIterator::next", "src/aabb.rs:Aabb::intersect4", "src/bvh_node.rs:BvhNode::sort_nodes4"]}
{"id": "C24", "title": "Primitive iterators agree with index iterators", "statement": "traverse_iter (and the packet and Mbvh variants) yields exactly primitives[id] for the successive ids yielded by the index iterator, provided the primitive slice covers every stored id.", "quantifier": "all BVHs, rays, primitive slices covering the ids", "why_tests_cant": "all trees and rays", "anchors": ["src/iter.rs:BvhIterator::next", "src/iter.rs:MbvhIterator::next", "src/iter_indices.rs:BvhIndexIterator::next", "src/iter_indices.rs:MbvhIndexIterator::next"]}
{"id": "C25", "title": "Primitive iterators terminate on any primitive slice", "statement": "traverse_iter terminates for every primitive slice, also one shorter than the ids stored in the BVH (the code handles primitives.get(id) == None).", "quantifier": "all BVHs and primitive slices, in particular short ones", "why_tests_cant": "a hang shows up only with a stale or short slice", "anchors": ["src/iter.rs:BvhIterator::next", "src/iter.rs:BvhPacketIterator::next", "src/iter.rs:MbvhIterator::next"]}
{"id": "C26", "title": "Mbvh::construct is total and keeps every leaf", "statement": "Mbvh::construct on any well-formed binary BVH never panics, allocates at most as many quad nodes as there are binary nodes, keeps nodes and indices unchanged, and its quad tree stores exactly the leaf ranges of the binary tree, each exactly once.", "quantifier": "all well-formed BVHs", "why_tests_cant": "case analysis over grand-children for every tree shape", "anchors": ["src/mbvh_node.rs:MbvhNode::merge_nodes", "src/bvh.rs:Mbvh::construct"]}
{"id": "C27", "title": "Mbvh child bounds contain their contents", "statement": "If every binary node's bounds contain the primitives below it, then the bounds stored for each used slot of each quad node contain every primitive reachable through that slot.", "quantifier": "all BVHs with containing bounds", "why_tests_cant": "all tree shapes", "anchors": ["src/mbvh_node.rs:MbvhNode::merge_nodes", "src/mbvh_node.rs:MbvhNode::set_bounds_bb"]}
{"id": "C28", "title": "Mbvh traversal terminates and misses no hit box", "statement": "Traversing an Mbvh (quad depth at most 10) with a ray or packet terminates, visits every leaf slot at most once, and yields every primitive whose valid box passes the quad-node box test for the current and all smaller t, under floating-point rounding.", "quantifier": "all Mbvhs of quad depth <= 10, all rays and packets (for the last clause: without NaN in the products the box test forms), all callers that only lower t", "why_tests_cant": "all trees, rays and callers", "anchors": ["src/iter_indices.rs:MbvhIndexIterator::next", "src/mbvh_node.rs:MbvhNode::intersect"]}
{"id": "C29", "title": "Mbvh traversal stack limit", "statement": "The unchecked 32-entry stack write of the Mbvh iterators stays in bounds for every quad tree of depth at most 10, and this is tight: there is a quad tree of depth 11 on which the iterator writes out of bounds.", "quantifier": "all quad trees by depth", "why_tests_cant": "memory-unsafe writes need deep trees", "anchors": ["src/iter.rs:MbvhIterator::next", "src/iter_indices.rs:MbvhIndexIterator::next"]}
{"id": "C30", "title": "Quad-node child ordering", "statement": "MbvhNode::intersect returns a permutation of the four child slots (no child skipped or repeated) whose first entry has the smallest and whose last entry has the largest entry distance; the ids are sorted by entry distance.", "quantifier": "all quad nodes, all rays, all float values for the permutation part", "why_tests_cant": "4! orders times float corner cases", "anchors": ["src/mbvh_node.rs:MbvhNode::intersect"]}
{"id": "C31", "title": "Nearest hit through Bvh traversal equals brute force", "statement": "In exact arithmetic, for every BVH of depth at most 31 whose bounds contain their primitives, running a closest-hit test on each yielded primitive leaves ray.t equal to the minimum over all primitives of the hit distances in (t_min, initial t) (or unchanged if none).", "quantifier": "all scenes, BVHs, rays with non-zero direction components, closest-hit callbacks whose hits lie in the primitive's box", "why_tests_cant": "all scenes and rays", "anchors": ["src/bvh.rs:Bvh::traverse_iter", "src/iter.rs:BvhIterator::next", "src/aabb.rs:Aabb::intersect", "src/builders/spatial_sah.rs:SpatialTriangle::intersect"]}
{"id": "C32", "title": "Nearest hit through Mbvh traversal equals brute force", "statement": "The same for Mbvh traversal, although quad-node tests prune with the shrinking ray.t.", "quantifier": "all scenes, Mbvhs of quad depth <= 10, rays with non-zero direction components", "why_tests_cant": "pruning interacts with every visiting order", "anchors": ["src/bvh.rs:Mbvh::traverse_iter", "src/iter.rs:MbvhIterator::next", "src/mbvh_node.rs:MbvhNode::intersect"]}
{"id": "C33", "title": "AABB union and intersection are lattice operations", "statement": "On numeric boxes union_of is the least box containing both, commutative, associative and idempotent; intersection/shrink give the greatest box contained in both; grow_bb and grow_bbs agree with union.", "quantifier": "all numeric boxes (floats with rounding; min/max are exact)", "why_tests_cant": "all boxes", "anchors": ["src/aabb.rs:Aabb::union_of", "src/aabb.rs:Aabb::intersection", "src/aabb.rs:Aabb::grow_bb", "src/aabb.rs:Aabb::grow_bbs", "src/aabb.rs:Aabb::shrink"]}
{"id": "C34", "title": "Growing contains, offsetting widens", "statement": "grow(p), from_points, union_of_list and the aabb! macro produce boxes containing every input point/box; offset_by/with_offset with a non-negative delta never loses a point, under floating-point rounding.", "quantifier": "all lists of NaN-free points and boxes, all finite non-negative deltas", "why_tests_cant": "all floats", "anchors": ["src/aabb.rs:Aabb::grow", "src/aabb.rs:Aabb::from_points", "src/aabb.rs:Aabb::union_of_list", "src/aabb.rs:Aabb::offset_by", "src/aabb.rs:aabb!"]}
{"id": "C35", "title": "Ray/box test is exact in exact arithmetic", "statement": "In exact arithmetic with non-zero direction components Aabb::intersect returns Some(t) exactly when some parameter greater than t_min puts the ray inside the closed box, and then t is the exit parameter; Aabb::intersects is the same test with 0 for t_min.", "quantifier": "all valid boxes and rays", "why_tests_cant": "all boxes and rays", "anchors": ["src/aabb.rs:Aabb::intersect", "src/aabb.rs:Aabb::intersects"]}
{"id": "C36", "title": "Ray/box test is monotone in the box", "statement": "Under floating-point rounding, if box A is contained in box B and the test passes on A without NaN then it passes on B (single ray, packet lane and quad-node versions).", "quantifier": "all floats, all boxes (packet and quad tests: a valid inner box), all rays without NaN in the products of the test; for the single-ray test, rays whose sign bits agree with their reciprocals", "why_tests_cant": "rounding for all floats", "anchors": ["src/aabb.rs:Aabb::intersect", "src/aabb.rs:Aabb::intersect4", "src/mbvh_node.rs:MbvhNode::intersect"]}
{"id": "C37", "title": "Numerically equal rays hit the same boxes", "statement": "Two rays built by Ray::new from numerically equal origins and directions get the same answer from every ray/box test.", "quantifier": "all pairs of numerically equal inputs, negative zero included", "why_tests_cant": "negative zero is easily forgotten in tests", "anchors": ["src/ray.rs:Ray::new", "src/aabb.rs:Aabb::intersect"]}
{"id": "C38", "title": "Triangle intersect updates t consistently", "statement": "SpatialTriangle::intersect returns true exactly when it changed ray.t, then the new t is greater than t_min and smaller than the old t, and nothing else in the ray changes; hence over any sequence of triangles t never increases.", "quantifier": "all triangles, rays and float values", "why_tests_cant": "all floats and sequences", "anchors": ["src/builders/spatial_sah.rs:SpatialTriangle::intersect"]}
{"id": "C39", "title": "Triangle intersect is geometrically right", "statement": "In exact arithmetic SpatialTriangle::intersect returns true exactly when the determinant is outside (-1e-5, 1e-5) and the ray meets the triangle at a parameter t in (t_min, old t), and then ray.t is that parameter and the hit point lies on the triangle, hence in its AABB.", "quantifier": "all triangles and rays", "why_tests_cant": "all triangles and rays", "anchors": ["src/builders/spatial_sah.rs:SpatialTriangle::intersect"]}
{"id": "C40", "title": "Packet triangle test agrees with four single tests", "statement": "SpatialTriangle::intersect4 with t_min splatted reports, per lane, the same hit and the same t as SpatialTriangle::intersect on that lane's ray.", "quantifier": "all triangles and packets", "why_tests_cant": "all lanes and floats", "anchors": ["src/builders/spatial_sah.rs:SpatialTriangle::intersect4", "src/builders/spatial_sah.rs:SpatialTriangle::intersect", "src/ray.rs:RayPacket4::ray"]}
{"id": "C41", "title": "Triangle split covers the clipped triangle", "statement": "SpatialTriangle::split(axis, position) returns two boxes that contain the part of the triangle on the low and high side of the plane respectively.", "quantifier": "all triangles, axes and positions (exact arithmetic)", "why_tests_cant": "all triangles", "anchors": ["src/builders/spatial_sah.rs:SpatialTriangle::split"]}
{"id": "C42", "title": "Spatial SAH keeps every primitive", "statement": "After construct_spatial_sah every primitive is referenced by at least one leaf.", "quantifier": "all scenes", "why_tests_cant": "loses primitives only for particular cost ratios", "anchors": ["src/builders/spatial_sah.rs:SpatialSahBuildTask::allocate_children", "src/builders/spatial_sah.rs:SpatialSahBuilder::build", "src/utils.rs:move_backward"]}
{"id": "C43", "title": "RayPacket4 lanes are the single rays", "statement": "RayPacket4::new(origins, directions).ray(i) equals Ray::new(origins[i], directions[i]) for each lane, and reset restores the default t.", "quantifier": "all origins and directions", "why_tests_cant": "all floats", "anchors": ["src/ray.rs:RayPacket4::new", "src/ray.rs:RayPacket4::ray", "src/ray.rs:Ray::new"]}
{"id": "C44", "title": "Transformed box contains the transformed contents", "statement": "In exact arithmetic Aabb::transformed(m) contains m*p for every point p of a valid box and every affine matrix m.", "quantifier": "all valid boxes, points, matrices", "why_tests_cant": "all matrices", "anchors": ["src/aabb.rs:Aabb::transformed", "src/aabb.rs:Aabb::all_corners"]}
{"id": "C45", "title": "Node encoding round-trips", "statement": "set_left_first/get_left_first and set_count/get_count round-trip for values below 2^31, classify nodes as leaf/interior/invalid consistently, do not disturb each other or the bounds, and values from 2^31 up are read back as None.", "quantifier": "all u32 values", "why_tests_cant": "2^32 values times states", "anchors": ["src/bvh_node.rs:BvhNode::set_left_first", "src/bvh_node.rs:BvhNode::get_left_first", "src/bvh_node.rs:BvhNode::set_count", "src/bvh_node.rs:BvhNode::is_leaf", "src/bvh_node.rs:BvhNode::has_children"]}
{"id": "C46", "title": "FFI handles are stable", "statement": "For every history of create/free/refit/create_mbvh calls: each successful creation returns a fresh id never returned before, a handle keeps designating the structure it was created for until freed, freeing one handle leaves all others unchanged, and a freed or unknown id never aliases a later structure.", "quantifier": "all call histories", "why_tests_cant": "all histories", "anchors": ["rtbvh_ffi/src/lib.rs:StructureManager::store", "rtbvh_ffi/src/lib.rs:StructureManager::get", "rtbvh_ffi/src/lib.rs:StructureManager::free", "rtbvh_ffi/src/lib.rs:StructureManager::store_mbvh"]}
{"id": "C47", "title": "FFI intersect protocol", "statement": "rtbvh_ffi intersect/intersect_mbvh (and packet variants) return Nan without calling back or changing t when origin or direction has a NaN; otherwise they call back with the traversal's ids in order up to and including the first callback returning true, and *t finally holds the t left by the last callback.", "quantifier": "all handles, rays and callbacks", "why_tests_cant": "all callback behaviours", "anchors": ["rtbvh_ffi/src/lib.rs:intersect", "rtbvh_ffi/src/lib.rs:intersect_mbvh", "rtbvh_ffi/src/lib.rs:intersect_packet"]}
{"id": "C48", "title": "FFI box conversion round-trips", "statement": "Converting Aabb to RTAabb and back (and BvhNode/RTBvhNode) is the identity, so node links survive the C boundary.", "quantifier": "all boxes", "why_tests_cant": "all values", "anchors": ["rtbvh_ffi/src/lib.rs:RTAabb", "rtbvh_ffi/src/lib.rs:RTBvhNode"]}
{"id": "C49", "title": "FFI triangle AABB contains its vertices", "statement": "For create_spatial_Bvh with null aabbs, the AABB computed for triangle i contains the vertices vertex0/1/2 that the same wrapper reports for that triangle.", "quantifier": "all vertex buffers and strides", "why_tests_cant": "all strides and buffers", "anchors": ["rtbvh_ffi/src/lib.rs:RTTriangleWrapper"]}
{"id": "C50", "title": "TaskSpawner runs every task exactly once before returning", "statement": "Whatever the interleaving of worker threads, when TaskSpawner::run returns every task (the first one and all tasks returned by run, transitively) has been run exactly once.", "quantifier": "all task trees, all thread interleavings", "why_tests_cant": "interleavings", "anchors": ["src/utils.rs:TaskSpawner::run", "src/utils.rs:TaskSpawner::run_task"]}
{"id": "C51", "title": "Concurrent allocation hands out disjoint node pairs", "statement": "Any number of AtomicNodeStack::allocate calls from any threads return pairwise disjoint, consecutive index pairs (left, left+1) above 0, and None exactly when the pair does not fit.", "quantifier": "all interleavings of allocations, all buffer sizes; None is exact for the odd sizes the builders use, for an even size the last pair refers one past the end", "why_tests_cant": "interleavings", "anchors": ["src/builders/mod.rs:AtomicNodeStack::allocate", "src/builders/mod.rs:AtomicNodeStack::new"]}
{"id": "C52", "title": "partition is a correct in-place partition", "statement": "partition(slice, 0..len, pred) permutes the slice, returns the number of elements satisfying pred and leaves exactly those in front. For a range start..stop inside the slice it permutes the slice, keeps everything behind the range and moves the elements of the range that satisfy pred, in order, to the front of the whole slice (so a range that does not start at 0 is not partitioned in place); a non-empty range that ends behind the slice panics.", "quantifier": "all slices and predicates", "why_tests_cant": "all slices", "anchors": ["src/utils.rs:partition"]}
{"id": "C53", "title": "prefix_sum is the inclusive prefix sum, also in place", "statement": "prefix_sum(first, count, output) writes the inclusive prefix sums of the first count elements and returns the total, also when output aliases first. For count = 0 it writes nothing and returns the first element; it panics when a slice is shorter than it needs.", "quantifier": "all inputs, counts and slice lengths", "why_tests_cant": "all inputs", "anchors": ["src/utils.rs:prefix_sum"]}
{"id": "C54", "title": "Empty structures are harmless", "statement": "Bvh::default and Mbvh::construct of it have empty-box bounds and every iterator over them yields nothing; iterators keep returning None after the first None.", "quantifier": "all rays/packets/primitive slices", "why_tests_cant": "all rays", "anchors": ["src/bvh.rs:Bvh::default", "src/bvh.rs:Mbvh::construct", "src/iter_indices.rs:BvhIndexIterator::new", "src/iter_indices.rs:MbvhIndexIterator::new"]}
{"id": "C55", "title": "bounds() strictly contains the scene", "statement": "For every built BVH, bvh.bounds().contains(v) holds for every vertex/point v of the input boxes (the epsilon padding makes the strict comparison succeed).", "quantifier": "all scenes", "why_tests_cant": "tests use small coordinates, where the epsilon is not absorbed by rounding", "anchors": ["src/aabb.rs:Aabb::contains", "src/aabb.rs:Aabb::with_offset", "src/bvh.rs:Bounds for Bvh"]}
{"id": "C56", "title": "construct_from_raw agrees with construct", "statement": "Mbvh::construct_from_raw on the nodes and indices of a well-formed BVH stores exactly the same leaf ranges as Mbvh::construct, also on its special path for at most four nodes.", "quantifier": "all well-formed BVHs", "why_tests_cant": "all shapes, incl. 1 and 3 nodes", "anchors": ["src/bvh.rs:Mbvh::construct_from_raw", "src/bvh.rs:Mbvh::construct"]}
{"id": "C57", "title": "aabbs = None is the same as passing each primitive's own AABB", "statement": "Building with aabbs = None gives, under every thread schedule, the same result as building with aabbs = Some(primitives.iter().map(aabb)); in particular node bounds contain the boxes of the primitives below them.", "quantifier": "all scenes, all orders in which the rayon bridge hands the computed boxes back", "why_tests_cant": "The order in which par_bridge().collect() delivers items depends on the thread schedule; a test that passes on one machine does not cover the other orders.", "anchors": ["src/bvh.rs: Builder::construct_binned_sah", "src/bvh.rs: Builder::construct_locally_ordered_clustered"]}
{"id": "C58", "title": "MortonEncoder::encode places a point in its grid cell, monotonically", "statement": "For a box of positive extent and a grid of dim <= 1024 cells per axis: in exact arithmetic the code of a point of the box interleaves the bits of floor(dim*(p-min)/(max-min)) per axis (the upper faces belong to the last cell); and with f32 rounding, raising any coordinates of a point never lowers its code as long as the grid positions are not NaN.", "quantifier": "all boxes of positive extent, grid sizes 1..1024, points and pairs of points", "why_tests_cant": "all floats and all pairs of points", "anchors": ["src/morton.rs:MortonEncoder::encode", "src/morton.rs:MortonEncoder::new"]}
{"id": "C59", "title": "Spatial SAH result is well-formed", "statement": "Whenever construct_spatial_sah returns a BVH, under whatever thread schedule, its nodes form one tree rooted at node 0 that uses every node, leaf ranges lie inside indices() and do not overlap, the depth is at most 64, every listed id is the id of a primitive, the leaves list at least as many references as there are primitives and at most n + floor(0.75 n) = indices().len().", "quantifier": "all scenes, all split implementations, all behaviours of the sort, all thread schedules", "why_tests_cant": "concurrent tasks allocate nodes and index ranges in an order decided by the scheduler", "anchors": ["src/builders/spatial_sah.rs:SpatialSahBuilder::build", "src/builders/spatial_sah.rs:SpatialSahBuildTask::run", "src/builders/spatial_sah.rs:SpatialSahBuildTask::allocate_children"]}
{"id": "C60", "title": "Spatial SAH is deterministic up to storage order", "statement": "If construct_spatial_sah returns a BVH under one thread schedule then under every schedule it neither panics nor writes out of bounds, every schedule terminates after the same number of steps, and all schedules give the same tree: same shape, same boxes, same ids in each leaf.", "quantifier": "all scenes, all pairs of thread schedules", "why_tests_cant": "a test sees one schedule per run", "anchors": ["src/builders/spatial_sah.rs:SpatialSahBuildTask::run", "src/utils.rs:TaskSpawner"]}
{"id": "C61", "title": "Spatial SAH never panics and never writes out of bounds", "statement": "construct_spatial_sah on a non-empty scene with one box per primitive returns a BVH: it does not panic and does not touch memory outside its buffers.", "quantifier": "all scenes, all schedules", "why_tests_cant": "depends on the position of a work item in the reference array and on cost ratios of particular scenes", "anchors": ["src/builders/spatial_sah.rs:SpatialSahBuildTask::apply_spatial_split", "src/builders/spatial_sah.rs:SpatialSahBuildTask::allocate_children", "src/utils.rs:move_backward"]}
{"id": "C62", "title": "A built BVH can be traversed", "statement": "Whatever scene the Builder accepts, a BVH it returns (binned or clustering) can be traversed by the index iterators and by those of the Mbvh made from it: no panic, no write past the traversal stack, termination.", "quantifier": "all scenes, schedules, rays, packets and callers", "why_tests_cant": "the stack has 32 entries and build depth is limited to 64 or not at all; needs a bound over all trees", "anchors": ["src/iter.rs:BvhIndicesIterator", "src/iter.rs:MbvhIndicesIterator", "src/builders/binned_sah.rs:BinnedSahBuilder::new", "src/builders/locb.rs:LocallyOrderedClusteringBuilder::build"]}
{"id": "C63", "title": "Build then query is complete end to end", "statement": "Build a BVH from a scene, traverse it with a ray: every primitive whose own box the ray hits is yielded, none twice; and a closest-hit loop over the traversal leaves in ray.t the nearest hit over all primitives of the scene, the brute-force answer.", "quantifier": "all scenes with one box per primitive, thread schedules, rays with non-zero direction components, closest-hit callers", "why_tests_cant": "the result must not depend on which tree was built; ranges over all scenes and rays", "anchors": ["src/bvh.rs:Builder", "src/bvh.rs:Bvh::get_indices_iter", "src/bvh.rs:Mbvh::construct", "src/aabb.rs:Aabb::intersect"]}
{"id": "C64", "title": "Visiting order of the children", "statement": "Where a ray hits both children of a node, the nearer child (by the distance Aabb::intersect reports) is visited completely before the farther one.", "quantifier": "all BVHs, rays and callers that only shorten the ray", "why_tests_cant": "an order over all trees and rays", "anchors": ["src/bvh_node.rs:BvhNode::sort_nodes", "src/iter.rs:BvhIndicesIterator::next"]}
{"id": "C65", "title": "Ray construction, reflection and validity", "statement": "Ray::new, From and reflect give rays with derived fields of their direction and reset limits; a fresh, reflected or reset ray is not valid (no hit), one with t < 1e33 is; reflect mirrors the direction at the unit normal (normal component negated, tangential kept, length kept, involution); get_point_at runs linearly from the origin.", "quantifier": "all rays, normals, points and distances", "why_tests_cant": "algebraic identities over all vectors", "anchors": ["src/ray.rs:Ray::new", "src/ray.rs:Ray::reflect", "src/ray.rs:Ray::is_valid", "src/ray.rs:Ray::get_point_at", "src/ray.rs:Ray::reset"]}
{"id": "C66", "title": "AABB measures", "statement": "is_valid answers whether min <= max on all three axes, so exactly for the boxes with a point in them; longest_axis is an axis of largest extent (lowest on ties) and longest_extent that extent; half_area and volume are monotone in the box and non-negative under rounding; in exact arithmetic half_area is half the surface area (and area returns the same number), volume the product of the edges, center the midpoint, which lies in the box.", "quantifier": "all valid boxes whose extents do not overflow", "why_tests_cant": "monotone rounding over all float boxes", "anchors": ["src/aabb.rs:Aabb::half_area", "src/aabb.rs:Aabb::area", "src/aabb.rs:Aabb::volume", "src/aabb.rs:Aabb::center", "src/aabb.rs:Aabb::longest_axis"]}
{"id": "C67", "title": "Binned SAH cuts every node by the surface-area rule", "statement": "In every finished binned build every interior node is cut either at a bin boundary no other boundary (of 3 axes, 16 bins) is cheaper than, measured by half area times count of the primitives on each side, and cheaper than a leaf; or, if no cut pays off and it holds more than primitives_per_leaf primitives, at the first boundary on the longest axis with more than two fifths of the primitives on its left; a leaf has one primitive, maximal depth, no cut that pays off, or a cut with all primitives on one side.", "quantifier": "all scenes, schedules, nodes, cuts", "why_tests_cant": "optimality over all cuts of all nodes of all scenes", "anchors": ["src/builders/binned_sah.rs:BinnedSahBuildTask::find_split", "src/builders/binned_sah.rs:BinnedSahBuildTask::run", "src/builders/binned_sah.rs:compute_bin_index"]}
{"id": "C68", "title": "A mesh traced through the hierarchy gives the nearest triangle", "statement": "Build with the clustering builder over triangles (each primitive's box contains its vertices), run the triangle intersection on every id the traversal yields; afterwards ray.t is the smallest parameter in (t_min, t) at which the ray meets any triangle of the whole mesh, or the old t if there is none; the same through an Mbvh made from the BVH. (What the binned builder's fallback does to this is C63.)", "quantifier": "all meshes, CPU counts, rays with no zero direction component; trees within the traversal stack (C22, C29)", "why_tests_cant": "a pruned triangle shows only for particular ray/mesh pairs; all meshes and rays", "anchors": ["src/bvh.rs:Bvh", "src/iter.rs:BvhIterator", "src/builders/spatial_sah.rs:SpatialTriangle::intersect", "src/lib.rs:tests"]}
{"id": "C69", "title": "Stopping at the first hit answers the occlusion query", "statement": "A loop over the traversal that breaks at the first primitive its test accepts is broken exactly if some primitive of the structure is accepted by the test on the original ray, and then at the first accepted one it is handed; otherwise the loop runs to its end and the ray is unchanged. For a triangle mesh: the shadow loop breaks iff some triangle of the mesh meets the ray strictly between t_min and t.", "quantifier": "all hierarchies within the traversal stack whose boxes contain their primitives' boxes, all rays, all tests that accept only primitives whose box is hit, Bvh and Mbvh; meshes built by the clustering builder", "why_tests_cant": "missing occluders depend on the ray; all scenes, rays and break points", "anchors": ["src/iter.rs:BvhIterator", "src/mbvh_node.rs:MbvhNode::intersect", "src/builders/spatial_sah.rs:SpatialTriangle::intersect"]}
{"id": "C70", "title": "Packet tracing finds every lane's nearest hit", "statement": "Run the 4-lane triangle (or any closest-hit packet) test on every primitive the packet traversal yields; afterwards each lane of packet.t is the smallest parameter in [t_min, t) at which that lane's ray meets any primitive of the structure (its old t if none), and nothing else in the packet changed, although nodes are pruned with the shrinking t of all lanes; for Bvh and Mbvh, also end to end from a mesh.", "quantifier": "all hierarchies within the traversal stack with containing boxes, all packets without zero direction components, t_min >= 0, all lanes, all primitives whose hit points lie strictly inside their boxes (the packet box test rejects flat boxes); meshes, flat triangles included, built by the clustering builder, which pads", "why_tests_cant": "interaction of four lanes' pruning over all scenes", "anchors": ["src/iter.rs:BvhPacketIterator", "src/aabb.rs:Aabb::intersect4", "src/mbvh_node.rs:MbvhNode::intersect4", "src/builders/spatial_sah.rs:SpatialTriangle::intersect4"]}
{"id": "C71", "title": "A packet is offered what its lanes would be offered", "statement": "Packet traversal of a built structure yields every primitive whose own box is met by the ray of some lane at a parameter in [0, t); in particular tracing a packet of copies of a ray finds what tracing the ray finds.", "quantifier": "all built structures, packets, lanes", "why_tests_cant": "differences show only for flat boxes far from the origin; all scenes and rays", "anchors": ["src/aabb.rs:Aabb::intersect4", "src/aabb.rs:Aabb::intersect", "src/iter.rs:BvhPacketIndexIterator"]}
{"id": "C72", "title": "The clustering builder joins exactly the mutual nearest neighbours", "statement": "construct_locally_ordered_clustered puts the primitives in Morton order (equal codes in input order), makes one leaf per primitive around its box padded by 1e-4, and then repeats rounds until one cluster is left: two clusters at most 14 places apart are joined exactly if each is, among the clusters within 14 places of the other, the one giving the smallest half area of the common box (the first one of several); the new cluster stands at the place of the later one, has the earlier one as left child, and every other cluster stays. The tree returned is the only one this rule allows.", "quantifier": "every legal scene of three or more valid boxes whose common padded box has a half area below f32::MAX (all coordinates up to 2^60 suffice), every number of CPUs, every round", "why_tests_cant": "a wrong neighbour search still gives a valid tree with correct bounds; only comparison with the rule for all scenes shows that the pairs are the right ones, including ties, window edges and chunk boundaries between threads", "anchors": ["src/builders/locb.rs: search_range, cluster, build", "src/morton.rs: get_sorted_indices"]}
{"id": "C73", "title": "Concurrent build tasks never touch the same memory", "statement": "While a binned SAH or spatial SAH build runs on a thread pool, at every moment of every schedule the memory any two unfinished tasks may touch without synchronisation (their node, the two nodes they have allocated, their range of the index array, their range of the reference arrays, the output range a leaf has claimed) is disjoint, lies inside the arrays and inside what the atomic counters have handed out. A step of a task changes nothing outside its memory, and what it does depends only on that memory and the atomic counters. So the unsafe shared slices and node stack are used without data races.", "quantifier": "every legal builder input, every schedule prefix, every pair of unfinished tasks, every memory location, every step and every other state that agrees on the task's memory", "why_tests_cant": "A data race shows only under particular interleavings and memory orders; tests run a few schedules and cannot see races that happened not to change the result.", "anchors": ["src/builders/binned_sah.rs: run, build", "src/builders/spatial_sah.rs: run, allocate_children, build", "src/builders/mod.rs: AtomicNodeStack", "src/utils.rs: UnsafeSliceWrapper, TaskSpawner"]}
{"id": "C74", "title": "Clustering result does not depend on thread interleaving in the parallel loops", "statement": "construct_locally_ordered_clustered returns the same result (the same BVH, or a panic) whatever the order in which rayon's workers execute the iterations of the parallel marking loop and of the parallel merging loop in each round: the iterations write different slots and read nothing another iteration writes.", "quantifier": "every legal builder input with at most 2^29 primitives, every number of CPUs, every number of rounds, every permutation of the iterations of each of the loops in every round, every floating-point behaviour", "why_tests_cant": "Rayon's order is not under the test's control, and the number of permutations is factorial in the number of primitives.", "anchors": ["src/builders/locb.rs: cluster, build"]}
{"id": "C75", "title": "The spatial builder cuts every node by its cost rule", "statement": "In every BVH returned by construct_spatial_sah, each node is decided by the documented rule: references are sorted per axis, the cheapest object cut over three axes (first of equals) is compared with a clipping plane (looked for only if the halves overlap by more than the threshold and room is left) and with keeping a leaf; the winner determines exactly which references go left and right, which are clipped in two, the children's boxes, and the room each child gets; leaves list the ids of their references.", "quantifier": "all scenes, provided splits, sorts (any permutation), thread schedules and float implementations", "why_tests_cant": "Which cut is cheapest at which node depends on all reference boxes at every level and the parallel schedule; a test compares a few scenes with the code's own answer.", "anchors": ["src/builders/spatial_sah.rs: find_object_split, apply_object_split, find_spatial_split, apply_spatial_split, allocate_children, run, build"]}
{"id": "C76", "title": "Bounds of spatial BVH nodes contain what is below them", "statement": "In a BVH returned by construct_spatial_sah, every leaf's bounds contain (the clipped part of) each primitive the leaf lists, and every node's bounds contain its children's bounds.", "quantifier": "all scenes without NaN, provided splits, sorts and schedules", "why_tests_cant": "Whether a child receives the references its bounds were made for depends on the rounding of the room shares at every node; most small scenes look right.", "anchors": ["src/builders/spatial_sah.rs: allocate_children, apply_object_split, apply_spatial_split, run"]}
{"id": "C77", "title": "Clipping plane of the spatial builder", "statement": "Where construct_spatial_sah looks for a plane to clip a node's references at, it divides the node's box along each axis into sixteen slabs of equal width, cuts the references into the slabs with the primitives' split, and takes the cheapest inner boundary (the first of several) over all three axes and, after an improvement, over the slabs next to it divided into sixteen again.  In exact arithmetic the plane lies strictly inside the node's box wherever the box has an extent.  The search panics only at a reference that ends in an earlier slab than it begins in, or that has to be cut and names no primitive.", "quantifier": "every node box, every list of references, every split function, every float type with the IEEE order laws", "why_tests_cant": "the candidates and costs depend on all references, on arbitrary user split functions and on the rounding of slab indices; a test sees a few scenes", "anchors": ["src/builders/spatial_sah.rs run_binning_pass", "src/builders/spatial_sah.rs find_spatial_split"]}
{"id": "C78", "title": "Clipping plane minimises the surface-area cost", "statement": "Among the candidate planes of a pass, the one construct_spatial_sah takes has the least surface-area cost: half area of the parts left of the plane times the number of references reaching into the left side, plus the same for the right side.", "quantifier": "every node box and list of references", "why_tests_cant": "optimality over all candidates must hold for every scene; a poor plane still gives a correct tree, so tests do not notice", "anchors": ["src/builders/spatial_sah.rs run_binning_pass"]}
{"id": "C79", "title": "Overlapping work of the build threads is unobservable", "statement": "The threads of construct_binned_sah and construct_spatial_sah work at the same time, without locks, on the same node, index and reference arrays, so that at any moment the memory a task owns may hold half-done work (a slice in the middle of a partition or sort, a node half written). However the tasks overlap and whatever their half-done work leaves in memory, everything outside the tasks at work is as some order of whole, uninterrupted task steps leaves it; every task at work can complete (or fails exactly as it would in that order); and the finished BVH is one that some order of whole steps returns, so all the other properties of the builders carry over; and the build ends: of the events of a history only a number bounded by the size of the scene are not writes of half-done work, and as long as a task is left such an event is possible (or a task fails).", "quantifier": "every legal builder, every interleaving of the tasks' beginnings, single writes, atomic operations and ends, and every value half-done work may leave in the locations a task owns", "why_tests_cant": "which half-done values a thread could see depends on timing at the level of single memory accesses; no test controls it", "anchors": ["src/builders/binned_sah.rs: BuildTask::run (132-282)", "src/builders/spatial_sah.rs: run (726-838)", "src/utils.rs: TaskSpawner, UnsafeSliceWrapper (98-289)", "src/builders/mod.rs: AtomicNodeStack (35-85)"]}
{"id": "C80", "title": "The C interface answers queries about the caller's boxes, from raw buffers to callbacks", "statement": "create_bvh refuses null pointers with ERROR and an empty scene with NO_PRIMITIVES, panics on a center stride other than 12 or 16, never reports an inequality of aabbs and primitives, and otherwise every complete schedule of the binned builder and every run of the clustering builder returns OK with a handle. After any history of other calls that neither refits nor frees that BVH, intersecting through the handle's slices (ray, packet, and the mbvh made from it, ray and packet) returns OK, calls the callback at most once per id, only with ids below the number of primitives, and, if the callback never stops the search, calls it for every primitive whose box the ray hits (for packets and mbvhs: hits before the final t).", "quantifier": "every history of calls before and after, every number of primitives, every buffers, strides and primitives per leaf, every thread schedule and CPU count, every ray, packet and callback; queries for trees within the traversal stack, caller-given boxes and (binned builder) primitives that no node misplaces (none is if primitives per leaf is at least the number of primitives), since otherwise C07 and C62 refute it", "why_tests_cant": "it ranges over all call histories, schedules, buffers and rays; a test sees one of each", "anchors": ["rtbvh_ffi/src/lib.rs: create_bvh (428-493), create_mbvh (499-513), intersect (551-581), intersect_packet (599-686), intersect_mbvh (700-731), intersect_mbvh_packet (749-835), BvhManager (45-127)", "src/bvh.rs: Builder (48-138)"]}
{"id": "C81", "title": "create_spatial_Bvh: from raw triangle buffers to query results", "statement": "create_spatial_Bvh on a non-empty scene returns OK with a handle (never ERROR or an inequality of aabbs and primitives; NO_PRIMITIVES for an empty one), the threads do not decide whether it does, and intersecting through the handle after any history of other calls ends, calls back only with ids of triangles, and reports every triangle the ray hits; with null aabbs the boxes are computed from the triangles.", "quantifier": "every history of calls, every number of triangles, buffers and strides, every thread schedule, every ray and callback", "why_tests_cant": "it ranges over all layouts, scenes, schedules and rays; a test fixes one of each", "anchors": ["rtbvh_ffi/src/lib.rs: create_spatial_Bvh (345-389), RTTriangleWrapper (259-336), intersect (551-581)", "src/builders/spatial_sah.rs"]}
{"id": "C82", "title": "Concurrent calls of the C interface are linearizable", "statement": "However the calls create_bvh, create_spatial_Bvh, create_mbvh, refit, free_bvh and free_mbvh made by any number of threads interleave, there is an order of the whole calls, consistent with which call returned before which was made, in which every call that returned gave the code and the handle it did return; the structures stored are those that order leaves. Two creations never return the same id. No two calls ever hold one of the manager's locks in ways that exclude each other.", "quantifier": "all interleavings of the lock-level steps of any number of calls with any arguments, any choice of addresses by the allocator, any contents of a structure while it is being refitted", "why_tests_cant": "A test runs one interleaving; the property is about every order in which threads get the locks.", "anchors": ["rtbvh_ffi/src/lib.rs: StructureManager::{store, store_mbvh, get, get_mut, free, free_mbvh}", "rtbvh_ffi/src/lib.rs: create_bvh, create_mbvh, refit, free_bvh, free_mbvh"]}
{"id": "C83", "title": "Calls of the C interface never deadlock", "statement": "As long as a call has not returned and no call is in code that panics, some call can take its next step, even if a waiting writer makes readers wait. A use of the interface takes at most twelve steps per call besides reads by queries and writes of a refit, so from every state all calls made so far can return.", "quantifier": "all reachable states of any number of concurrent calls, all lock policies that refuse a lock only while it is held in conflict or (to a reader) while a writer waits", "why_tests_cant": "Deadlocks appear only in rare interleavings; create_mbvh holds two locks while it takes two more.", "anchors": ["rtbvh_ffi/src/lib.rs: StructureManager::{store, store_mbvh, get, get_mut, free, free_mbvh}", "rtbvh_ffi/src/lib.rs: create_mbvh"]}
{"id": "C84", "title": "Queries through the C interface see a consistent structure while other calls run", "statement": "Everything a call of intersect, intersect_packet, intersect_mbvh or intersect_mbvh_packet reads through its handle is the structure the calls finished so far have left there.", "quantifier": "all interleavings of queries with creations, refits and frees", "why_tests_cant": "The query functions take no lock, so what they read depends on the interleaving.", "anchors": ["rtbvh_ffi/src/lib.rs: intersect, intersect_packet, intersect_mbvh, intersect_mbvh_packet", "rtbvh_ffi/src/lib.rs: refit, free_bvh"]}
{"id": "C85", "title": "Memory layout and alignment across the C interface and in SIMD loads", "statement": "Boxes, nodes and quad nodes have the same size and field offsets on both sides of the C interface; pointers handed out are aligned for the C types; the aligned SIMD loads of a quad node never fault, and the caller's boxes may be read as the library's boxes.", "quantifier": "all base addresses the allocator or the C caller may choose within the alignment of the types, all element indices; all repr(C) structs", "why_tests_cant": "Whether a load is aligned depends on the address the allocator returns; most allocators return multiples of 16.", "anchors": ["src/mbvh_node.rs: MbvhNode, points, min_points, max_points", "src/aabb.rs: Aabb", "rtbvh_ffi/src/lib.rs: RTAabb, RTBvhNode, RTMbvhNode, create_bvh, create_spatial_Bvh, refit"]}
{"id": "C86", "title": "Rays with NaN get no primitives", "statement": "A ray or packet that contains a NaN in any component of its origin or direction is offered no primitive by any iterator of a BVH or 4-wide BVH, and is left unchanged; the guard refuses nothing else.", "quantifier": "every structure (any nodes and indices), every ray and packet with a NaN in any component or lane, every callback", "why_tests_cant": "NaN can sit in any of 6 components or 24 lanes and the nodes are arbitrary; min/max instructions drop NaNs, so a missing check shows only on particular lanes and boxes", "anchors": ["src/iter_indices.rs: BvhIndexIterator::new, BvhPacketIndexIterator::new, MbvhIndexIterator::new", "src/iter.rs: BvhIterator::new, BvhPacketIterator::new"]}
{"id": "C87", "title": "Debug and release builds agree", "statement": "Compiling the crate with debug assertions changes nothing a caller can observe: on every accepted input and under every thread schedule the binned and the spatial builder do what the release build does (same tree, or the same fault at the same step), no task reaches the spawner deeper than its asserted maximum, the clustering builder returns the same tree whenever the release build returns one (boxes valid and finite), and only construct_from_raw on an empty node list differs (panic instead of an empty structure).", "quantifier": "all legal builders, primitives, split methods, library sorts, arrival orders, thread schedules and spawner interleavings", "why_tests_cant": "the test suite runs one profile on a few scenes; a debug assertion that can fail for some scene and schedule would crash only users of debug builds, and one that can be false signals a broken invariant in release builds", "anchors": ["src/builders/locb.rs: cluster (101, 112, 129)", "src/builders/spatial_sah.rs: apply_spatial_split (718-719), run_binning_pass, allocate_children", "src/utils.rs: TaskSpawner::run_task (256), UnsafeSliceWrapper (132-180)", "src/bvh.rs: construct_from_raw (354)"]}
{"id": "C88", "title": "Transformed boxes contain the transformed contents in f32 as well", "statement": "For every finite valid box, every Mat4 m and every point p of the box with no NaN or overflow involved, the box returned by Aabb::transformed(m), computed in f32, contains the f32 value of m * p.", "quantifier": "all binary32 boxes, matrices and points of the box", "why_tests_cant": "the corners are recomputed as min + (max - min) with rounding; which boxes lose a corner depends on the relative size of both ends", "anchors": ["src/aabb.rs:Aabb::transformed", "src/aabb.rs:Aabb::all_corners", "src/aabb.rs:Aabb::from_points"]}
{"id": "C89", "title": "Camera packets are four camera rays", "statement": "CameraView3D::generate_ray4(x, y) holds in lane i exactly the ray generate_ray(x[i], y[i]) would be (origin, direction, reciprocals, t), so in a frame whose width is a multiple of four packet mode shoots, chunk by chunk, exactly the rays ray mode shoots pixel by pixel. The rays start at the camera and go through the pixel's point of the screen, whose middle is one unit along the direction the camera looks in, however the camera was moved and turned.", "quantifier": "all cameras, pixels, frame widths divisible by four, moves and turns; lane equality for every float behaviour and every square root, the geometry in exact arithmetic", "why_tests_cant": "equality of two independently written vector computations has to hold for every camera and pixel", "anchors": ["shared/src/lib.rs: CameraView3D::{generate_ray, generate_ray4, translate, translate_target}", "examples/visualizer.rs 239-245, 302-308"]}
{"id": "C90", "title": "Averager keeps a sliding window", "statement": "An Averager of positive capacity never panics; after any sequence of samples data() is the last `capacity` samples in order (all of them while there are fewer) and get_average() is their sum from the left times the reciprocal of their number. Capacity 0 panics at the first sample.", "quantifier": "all capacities and all finite sequences of samples, every float behaviour", "why_tests_cant": "histories of arbitrary length, wrapping around at every capacity", "anchors": ["examples/visualizer.rs 371-435: Averager"]}
{"id": "C91", "title": "The visualizer draws the nearest triangle", "statement": "Each of the visualizer's modes (Bvh, Mbvh, BvhPacket, MbvhPacket) draws at a pixel the triangle whose test wrote the final ray.t; in exact arithmetic that is a triangle of the mesh that the pixel's ray meets first, nothing is drawn exactly if the ray meets none, and two modes draw the same triangle whenever only one is met first.", "quantifier": "all meshes, rays and packets, whatever the traversal yields; end to end for every tree within the traversal stack's limit", "why_tests_cant": "the order in which the traversal offers triangles depends on the hierarchy; the last one noted must be the nearest for every order", "anchors": ["examples/visualizer.rs 239-355", "shared/src/lib.rs 5-53", "src/spatial_sah.rs: SpatialTriangle::{intersect, intersect4}"]}
{"id": "C92", "title": "Tracing a mesh through a spatial-split BVH finds the nearest hit", "statement": "Build with construct_spatial_sah and query: running the triangle test on every id the traversal yields leaves in ray.t the nearest hit over all primitives, through the Bvh and through the Mbvh made from it, although a primitive may be cut into several references and listed by several leaves; a shadow loop stops exactly if something blocks the segment; and packets do the same for each lane.", "quantifier": "all scenes, schedules, sorts, provided split functions that lose no point, and rays; trees within the traversal stack's limit", "why_tests_cant": "whether a hit is reported depends on every cut and every move of references on the path to the leaf, for every scene and every ray", "anchors": ["src/builders/spatial_sah.rs: run, allocate_children, apply_object_split, apply_spatial_split", "src/bvh.rs: Builder::construct_spatial_sah, Bvh::get_indices", "src/iter_indices.rs", "examples/visualizer.rs 70-74"]}
{"id": "C93", "title": "Tracing a mesh through the hierarchy finds what testing every triangle finds, in f32", "statement": "In single precision, running the crate's triangle test on every id that a traversal yields leaves the same ray.t (the same packet.t in every lane) as running it on every triangle of the mesh in turn: a hierarchy is only an acceleration and never changes the answer.", "quantifier": "all meshes, build schedules, rays and packets; Bvh and Mbvh; binned and clustering builders", "why_tests_cant": "the triangle test and the box tests round differently; whether they agree depends on every coordinate, and the shrinking t prunes nodes in an order that depends on earlier hits", "anchors": ["src/builders/spatial_sah.rs: SpatialTriangle::intersect, intersect4", "src/aabb.rs: intersect, intersect4", "src/mbvh_node.rs: intersect, intersect4", "src/iter_indices.rs"]}
{"id": "C94", "title": "Iterators under any client, call by call", "statement": "A client that calls next() itself, remembers what it likes, changes the ray through the reference between calls, and may go on calling after None: at every call it finds the ray exactly as it left it, and once next() has returned None it returns None for ever, on every Bvh and Mbvh, well-formed or not, for all eight iterators. On well-formed trees within the stack limits in which every id occurs once, every call returns without panic, and the calls go exactly as in a for loop whose body has no memory and does in each situation something the client might do; so everything proved about all such loops holds for all clients. In particular a client with a closest-hit test finds, at its first None, the brute-force nearest hit in ray.t, after at most as many items as there are primitives. The iterators over primitives give, call by call, primitives[id] for the ids of the iterators over ids.", "quantifier": "every Bvh and Mbvh, every client (memory of any type, any reaction to any item and to None), every initial ray or packet, every number of calls", "why_tests_cant": "the clients are arbitrary stateful programs that may change the ray between any two calls", "anchors": ["src/iter.rs: next", "src/iter_indices.rs: next", "src/bvh.rs: traverse_iter, traverse_iter_indices, traverse_iter_packet, traverse_iter_indices_packet"]}
{"id": "C95", "title": "Rounding never makes a clustering-built hierarchy cull what a ray meets, axis-parallel rays included", "statement": "In single precision, after construct_locally_ordered_clustered, let the ray's origin have coordinates of at most 200 in size and each direction component be 0 or of a size between 2^-100 and 2^100. Then every primitive whose box (coordinates at most 200 in size) the ray meets in exact arithmetic at a parameter in its interval is yielded: by a ray query of the Bvh (parameter at least t_min, no direction component -0.0), by a packet query of the Bvh (parameter at least 0 and below the lane's final t), and by ray and packet queries of the Mbvh (parameter below the final t). In particular every triangle whose vertices lie in its box and which the exact ray meets is yielded. The bound on coordinates and the exclusion of -0.0 are necessary: far away from the origin, or with -0.0, hits are lost.", "quantifier": "all scenes, all boxes with coordinates up to 200, all rays and packets incl. those parallel to axes, all callers that only lower t, all exact hit parameters", "why_tests_cant": "Whether the 1e-4 padding outweighs the rounding of subtraction, reciprocal and multiplication is a statement about all triples of floats; a test samples a few.", "anchors": ["src/builders/locb.rs build (leaf padding)", "src/aabb.rs intersect, intersect4, offset_by", "src/mbvh_node.rs intersect, intersect4", "src/iter_indices.rs", "src/ray.rs Ray::new, RayPacket4::new"]}
{"id": "C96", "title": "Rounding never makes a binned-SAH hierarchy cull what a ray meets", "statement": "The claim of C95 for construct_binned_sah, under every schedule of its worker threads: in single precision, with coordinates of at most 200 in size, no query of the Bvh or Mbvh culls a primitive whose box the ray meets in exact arithmetic.", "quantifier": "all scenes and schedules, all boxes with coordinates up to 200, all rays and packets incl. those parallel to axes, all callers that only lower t, all exact hit parameters", "why_tests_cant": "As for C95, and the schedule of the build is chosen by the operating system.", "anchors": ["src/builders/binned_sah.rs run", "src/aabb.rs intersect, intersect4, offset_by", "src/mbvh_node.rs intersect, intersect4"]}
{"id": "C97", "title": "Spatial build then query, in single precision, yields every primitive the ray hits", "statement": "After construct_spatial_sah, a ray, a packet, or either through the Mbvh made from the Bvh, is offered every primitive that the ray hits, with all box arithmetic done in f32.", "quantifier": "all legal scenes (finite boxes, any number of primitives), all stable sorts and thread schedules of the builder, all rays and packets, all callbacks that only lower t", "why_tests_cant": "The failure needs a coincidence of rounding in three slab products of one ray, or an overwrite that depends on the cut planes; a sample of scenes and rays does not meet it.", "anchors": ["src/builders/spatial_sah.rs: SpatialSahBuilder::build, run, allocate_children (378)", "src/bvh.rs: Builder::construct_spatial_sah", "src/aabb.rs: Aabb::intersect, intersect4", "src/mbvh_node.rs: MbvhNode::intersect, intersect4"]}
{"id": "C98", "title": "Tracing a buffer in parallel gives what tracing it ray by ray gives", "statement": "Splitting a buffer of rays (or packets) into chunks with par_chunks_mut and tracing the chunks from several threads through one shared Bvh or Mbvh, as the benchmark does, ends with exactly the buffer that the sequential loop leaves, whatever the loop body does to the ray it is handed: each place depends on the ray in that place alone. No task panics, some task can always go on until all are through, the total number of steps is bounded; and what happens to the rays of one chunk never affects another chunk, not even if the iterator panics or never ends there.", "quantifier": "all well-formed BVHs within the stack limits, primitive slices covering the ids, loop bodies, buffers, chunk widths and interleavings of the tasks, step by step; isolation: all iterators and bodies", "why_tests_cant": "the interleavings of traversal steps of many tasks on a shared buffer cannot be enumerated; a test sees a few of them", "anchors": ["examples/benchmark.rs: intersect_rays, intersect_packets", "src/bvh.rs: IntoRayIterator::iter, IntoPacketIterator::iter", "src/iter.rs: BvhIterator, BvhPacketIterator, MbvhIterator, MbvhPacketIterator"]}
{"id": "C99", "title": "The C interface never loses an exact hit to rounding", "statement": "After create_bvh on the caller's boxes and any further calls that neither refit nor free the BVH, a query through the handle (ray, packet, and both through the mbvh made from it) whose callbacks never stop the search calls back for every primitive whose box the ray meets in exact arithmetic inside the ray's interval, although all box tests are computed in single precision; axis-parallel rays, whose slab products are 0 * inf, included. Together with C95 (triangles inside their boxes) every triangle a ray really meets reaches the callback.", "quantifier": "every history of calls before and after, every scene of up to 2^29 boxes, every schedule and CPU count; boxes and origins with coordinates of at most 200 in size, direction components zero or between 2^-100 and 2^100 in size (for intersect: no -0.0), every callback (packet and mbvh queries: that only lowers *t), trees within the traversal stack; for the binned builder, primitives that no node misplaces (C07; none is misplaced if primitives per leaf is at least the number of primitives)", "why_tests_cant": "needs an error analysis of the slab test for all floats, carried through building, handle management and traversal for every history and schedule", "anchors": ["rtbvh_ffi/src/lib.rs: create_bvh, create_mbvh, intersect, intersect_packet, intersect_mbvh, intersect_mbvh_packet", "src/aabb.rs: intersect, intersect4", "src/mbvh_node.rs: intersect, intersect4", "src/builders/locb.rs: build"]}
{"id": "C100", "title": "Below the root's left child a spatial-split BVH loses and duplicates nothing", "statement": "In every BVH that construct_spatial_sah returns and whose root is an interior node, the leaves below the root's left child list each primitive at most once, and exactly the primitives that have a part on the left of the root's cut: spatial splitting never duplicates or drops a reference there, because the room for duplicated references all goes to right children. Every primitive that lies entirely on the left of the root's cut is listed there and is found as in a BVH without spatial splits, whatever happens on the right.", "quantifier": "every legal scene, every split callback, every stable or unstable sort, every schedule of the worker threads, every float behaviour", "why_tests_cant": "the duplication budget is divided recursively along the tree, so the claim is about all depths, scenes and callbacks; a test sees the ids of one tree, where a lost reference on the left could be masked by a duplicate", "anchors": ["src/builders/spatial_sah.rs: allocate_children", "src/builders/spatial_sah.rs: apply_spatial_split", "src/builders/spatial_sah.rs: SpatialSahBuildTask::run", "src/bvh.rs: Builder::construct_spatial_sah"]}
{"id": "C101", "title": "A binned build is safe whatever center() answers, call by call", "statement": "If the user's Primitive::center() is not a pure function (interior mutability, data shared with other threads), construct_binned_sah still never panics, never allocates past its node buffer and always terminates, and the BVH it returns is well formed: the index array is a permutation of all ids, every primitive is in exactly one leaf exactly once, there are an odd number of at most 2n-1 nodes, the depth is at most 64, validate accepts it, and (numeric boxes) the box of the whole scene contains every primitive's padded box. Only which of the valid trees is returned may depend on the answers.", "quantifier": "all scenes of 1 to 2^30 primitives, all boxes, all arrival orders, all thread schedules, and all sequences of answers of the single calls of center(), NaN and infinities included", "why_tests_cant": "A test's primitives answer consistently; here every single call (three per primitive and task while binning, one while partitioning) may answer anything, under any schedule.", "anchors": ["src/bvh.rs Primitive::center, Builder::construct_binned_sah", "src/builders/binned_sah.rs BinnedSahBuildTask::run, BinnedSahBuilder::build", "src/utils.rs partition", "src/builders/mod.rs AtomicNodeStack::allocate"]}
{"id": "C102", "title": "Lowering t while iterating never adds ids and only drops ids the final t rules out", "statement": "Take a loop over `traverse_iter_indices_packet` of a `Bvh`, or over `traverse_iter_indices` or `traverse_iter_indices_packet` of an `Mbvh`, whose body changes nothing of the ray or packet but lowers `t`. The ids it sees are, in the same order, some of those a loop sees whose body leaves the ray alone; and if the body never breaks, the ids a loop sees that leaves alone the ray the first loop ended with are, in the same order, some of those the first loop saw. So recording hits in `t` as one goes is never worse than iterating with the final distance and never reorders anything, whatever the boxes in the structure are. For single rays over a `Bvh` the box test ignores `t`: all three loops see the same ids in the same order. The same holds of the callbacks of the C functions intersect_packet, intersect_mbvh and intersect_mbvh_packet that never raise `*t`.", "quantifier": "every structure whose nodes form a tree within the stack limit (built, refitted or corrupted boxes included), every ray or packet, every loop body that only lowers t, every id", "why_tests_cant": "the order in which the nodes are opened depends on the ray and on every earlier change of t; a test sees a few orders of a few structures", "anchors": ["src/iter_indices.rs BvhPacketIndexIterator, MbvhIndexIterator, MbvhPacketIndexIterator", "src/bvh_node.rs sort_nodes4", "src/mbvh_node.rs intersect, intersect4", "src/aabb.rs Aabb::intersect4", "rtbvh_ffi/src/lib.rs intersect_packet, intersect_mbvh, intersect_mbvh_packet"]}
{"id": "C103", "title": "After refit nothing panics, and nothing is ever handed out", "statement": "Once `refit` has returned, whatever the structure was and whatever boxes it was given: `refit` with any number of any boxes returns again; `Mbvh::construct` and `construct_from_raw` of the result return; and no iterator and no C query function over the result, or over a four-wide structure made from it, panics, fails to end, changes the ray or hands out a primitive. (Refit wipes the links of every node, see C19; this says that the wreck is at least safe to use.)", "quantifier": "every Bvh, valid or not, for which refit returned; every list of boxes at the first and at every later refit; every ray, packet, primitive list and callback", "why_tests_cant": "a refitted structure is a wreck: that no further use of it panics has to be shown for every structure and every use, and a test that sees no hits cannot tell a miss from a wiped tree", "anchors": ["src/bvh.rs Bvh::refit, Mbvh::construct, Mbvh::construct_from_raw", "src/iter.rs", "src/iter_indices.rs", "src/mbvh_node.rs merge_nodes", "rtbvh_ffi/src/lib.rs refit, intersect, intersect_packet, intersect_mbvh, intersect_mbvh_packet"]}
{"id": "C104", "title": "Boxes used as primitives answer a centre inside themselves", "statement": "`Aabb` implements `Primitive`, so boxes can be built over directly. In single precision, for every valid box with finite corners: `center()` lies in the box exactly if no sum `min + max` overflows (always so for coordinates of magnitude up to 1.7e38), and then each coordinate of it is the correctly rounded exact midpoint, although the code rounds twice.", "quantifier": "every valid box with finite corners, subnormal and huge coordinates included", "why_tests_cant": "rounding behaves differently in the subnormal, normal and overflowing range; only an argument about all pairs of numbers excludes a centre that is rounded out of a thin box", "anchors": ["src/aabb.rs Aabb::center, impl Primitive for Aabb"]}
{"id": "C105", "title": "A panic in user code never hangs a build, never outlives it and is never swallowed", "statement": "When a user's center() or split() panics inside a parallel build, the build still ends: no thread waits for ever for another one, every thread the build started has ended before the call returns or unwinds, and the panic always reaches the caller: the build returns a BVH if and only if nothing panicked, and then it is the BVH a build without panics gives. The other tasks, which then work without what the lost tasks would have done, do not fault by themselves.", "quantifier": "every legal set of primitives, every interleaving of the threads, any number of panics at any tasks, in the caller's thread or in spawned ones, at any spawn threshold; for the spawner itself, every task type and whatever memory the panicking task leaves", "why_tests_cant": "Which tasks run before, during and after a panic, and who joins whom, depends on the scheduler; a test sees one interleaving of one panic.", "anchors": ["src/utils.rs: TaskSpawner::run, run_task", "src/builders/binned_sah.rs: BuildTask::run, BinnedSahBuilder::build", "src/builders/spatial_sah.rs: SpatialSahBuildTask::run, build"]}
{"id": "C106", "title": "Which box operations keep a node's links", "statement": "A node stores its links in the two payload words (extra1, extra2) of its box. grow, grow_bb, grow_bbs, shrink, with_offset and offset_by keep both words, so a node edited through its box reads back the same count, left_first and classification; new, full, empty, From, union_of, intersection, from_points, aabb!, union_of_list and transformed (hence transform, which assigns its result) return a box with both words 0, so a node whose box is replaced by one of these reads as a leaf of 0 primitives at 0, whatever it linked to.", "quantifier": "all boxes, nodes, points, lists of boxes, offsets and matrices, any float values", "why_tests_cant": "all float values, lists of any length", "anchors": ["src/aabb.rs: Aabb::grow, grow_bb, grow_bbs, shrink, with_offset, offset_by, union_of, intersection, from_points, union_of_list, transformed, transform", "src/bvh_node.rs: BvhNode::get_count, get_left_first"]}
{"id": "C107", "title": "Lanes of a packet do not shadow each other", "statement": "What a loop over a packet is offered because of one lane does not depend on the other lanes. For a 4-wide BVH: everything that the packet of four copies of one lane is offered is offered, in the same order, to the packet itself, whatever the other lanes hold (NaN and infinities included) and whatever the boxes in the structure are. For a BVH the same holds without the order for every packet without NaN; a NaN in one lane makes the whole packet be offered nothing, and the order can change. Loops that lower t as they go see everything that a lane by itself is offered at the distance the loop ended with.", "quantifier": "every structure whose nodes form a tree within the stack limit, every packet, every lane, every loop body that leaves the packet alone or only lowers t", "why_tests_cant": "all structures times all combinations of four lanes", "anchors": ["src/iter_indices.rs: BvhPacketIndexIterator, MbvhPacketIndexIterator", "src/aabb.rs: Aabb::intersect4", "src/mbvh_node.rs: MbvhNode::intersect4"]}
{"id": "C108", "title": "The example camera frames its field of view", "statement": "After translate or translate_target the screen of CameraView3D is a rectangle across the direction of view, one unit in front of the camera, 2 tan(fov/2) high (fov in degrees) and aspect_ratio times as wide, whichever way the camera looks.", "quantifier": "all cameras, fields of view, aspect ratios, unit directions, moves and turns; exact arithmetic", "why_tests_cant": "all directions and angles", "anchors": ["shared/src/lib.rs: CameraView3D::translate, translate_target, generate_ray"]}
{"id": "C109", "title": "refit every frame", "statement": "An animation loop calls refit once per frame on the structure the previous refit left. Every such call is as good as the first: what it computes depends on the tree and on the boxes given, not on the stale boxes stored before; calling it twice with the same boxes is calling it once; and after each call the boxes of the nodes and bounds() contain the boxes given last.", "quantifier": "every structure, every sequence of refits, every list of boxes at each of them", "why_tests_cant": "a history property over arbitrary trees and boxes; refit itself is only observable through a later call", "anchors": ["/repo/src/bvh.rs: Bvh::refit, Bvh::bounds", "/repo/src/aabb.rs: Aabb::new, Aabb::offset_by", "/repo/rtbvh_ffi/src/lib.rs: refit"]}
{"id": "C110", "title": "A query is linear work", "statement": "A query over a BVH that construct_binned_sah or construct_locally_ordered_clustered makes of n primitives (tree at most 31 deep) ends within 3n rounds of the iterator's loop, whatever the ray or packet and whatever the caller does to it between items; a query over the four-wide structure made from it (traversal within the stack) within 11n rounds; over a spatial-split BVH within three rounds per reference the builder may make. The bound 3n is reached. Deeper trees make a query panic at most, never go on: after 3n rounds no query over a binned or clustered BVH of any depth is still running (spatial splits: three rounds per reference), and none has handed out an id more often than it is stored.", "quantifier": "every scene, every thread schedule and CPU count of the build, every ray, packet and caller", "why_tests_cant": "a bound on the running time for all scenes, rays and callers; a test can only measure some", "anchors": ["/repo/src/iter_indices.rs: BvhIndexIterator, BvhPacketIndexIterator, MbvhIndexIterator, MbvhPacketIndexIterator", "/repo/src/bvh.rs: Mbvh::construct", "/repo/src/bvh.rs: constructors"]}
