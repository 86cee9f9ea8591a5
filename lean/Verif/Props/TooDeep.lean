import Verif.Props.EndToEnd
/- C62, negative part: scenes of 33 primitives whose BVH no ray iterator can traverse. -/
namespace Rtbvh
open FloatOps Aabb

/-- Unit cubes at 1, 2, 4, …: the clustering builder chains them up. -/
def doubling : List (Int × Int) := (List.range 33).map fun k => (2 ^ k, 1)

/-- Cubes at growing distances: every binned split cuts off only the last one. -/
def growing : Nat → List (Int × Int) → List (Int × Int)
  | 0, l => l.reverse
  | n + 1, l =>
    let x := (l.headD (1, 1)).1 * (max (Nat.sqrt ((l.length + 1) * 80)) 15 : Nat) / 10 + 1
    growing n ((x, x / 3 + 1) :: l)

def deepRayLoc : Ray F32 := Ray.new ⟨lit 1 10, zero, zero⟩ ⟨lit (-1) 0, lit 1 (-20), lit 1 (-20)⟩
def deepRayBin : Ray F32 := Ray.new ⟨lit 1 19, zero, zero⟩ ⟨lit (-1) 0, lit 1 (-25), lit 1 (-25)⟩

/-- Depth of the tree built and how the `for` loop over the index iterator ends. -/
def deepRun (r : Except BuildError (Option (Option (Bvh F32)))) (ray : Ray F32) : Option (Nat × Ending) :=
  (builtTree r).map fun x => (x.2.depth, (x.1.forIndices (fun r _ => (r, false)) 1000 ray).ending)

/-
The run of the clustering builder is evaluated in pieces, to keep the kernel's memory use down: the states `cp0`, `cp5`, …
after 0, 5, … rounds are written out, and each piece is checked separately.
-/

/-- Node array, copy, auxiliary data, `begin`, `end`, previous `end`. -/
abbrev LocState := List (BvhNode F32) × List (BvhNode F32) × List Nat × Nat × Nat × Nat

instance : DecidableEq LocState := inferInstance
instance : DecidableEq (List Nat × LocState) := inferInstance

/-- `k` rounds of the clustering loop. -/
def locRounds : Nat → LocState → Option LocState
  | 0, s => some s
  | k + 1, (nodes, copy, aux, b, e, pe) =>
    if e - b > 1 then
      (locbCluster 14 1 65 nodes copy aux b e pe).bind fun s => locRounds k (s.1, nodes, s.2.1, s.2.2.1, s.2.2.2, e)
    else none

theorem locRounds_loop : ∀ (k fuel : Nat) {s s' : LocState}, locRounds k s = some s' →
    locbLoop 14 1 65 (k + fuel) s.1 s.2.1 s.2.2.1 s.2.2.2.1 s.2.2.2.2.1 s.2.2.2.2.2 =
      locbLoop 14 1 65 fuel s'.1 s'.2.1 s'.2.2.1 s'.2.2.2.1 s'.2.2.2.2.1 s'.2.2.2.2.2
  | 0, fuel, s, s', h => by
    rw [locRounds, Option.some.injEq] at h
    rw [h, Nat.zero_add]
  | k + 1, fuel, (nodes, copy, aux, b, e, pe), s', h => by
    rw [locRounds] at h
    rw [Nat.add_right_comm, locbLoop]
    split at h
    · rename_i hlt
      rw [if_pos hlt]
      cases hc : locbCluster 14 1 65 nodes copy aux b e pe with
      | none => rw [hc] at h; cases h
      | some x =>
        rw [hc, Option.bind_some] at h
        rw [Option.bind_some]
        exact locRounds_loop k fuel h
    · cases h

/-- The builder up to its loop. -/
def locStart (aabbs : List (Aabb F32)) (centers : List (Vec3 F32)) : Option (List Nat × LocState) :=
  ((MortonEncoder.new (Aabb.unionOfList aabbs) MortonEncoder.maxGridDim).getSortedIndices aabbs centers).bind fun sorted =>
  let n := aabbs.length
  let nc := 2 * n - 1
  let empty : BvhNode F32 :=
    (({ bounds := Aabb.ofPoints2 (Vec3.splat zero) (Vec3.splat zero) } : BvhNode F32).setCount none).setLeftFirst (some 0)
  let nodes := List.replicate nc empty
  (forRange (fun i nodes =>
      (sorted.1[i]?).bind fun p => (locbLeaf aabbs i p).bind fun nd => setAt nodes (nc - n + i) nd)
    n 0 nodes).map fun leaves => (sorted.1, leaves, nodes, List.replicate (nc * 3) nc, nc - n, nc, nc)

theorem locStart_build {aabbs : List (Aabb F32)} {centers : List (Vec3 F32)} {ids : List Nat} {s : LocState} (fuel : Nat)
    (hn : aabbs.length = 33) (hc : centers.length = 33) (h : locStart aabbs centers = some (ids, s)) :
    locbBuild 1 fuel aabbs centers =
      (locbLoop 14 1 65 fuel s.1 s.2.1 s.2.2.1 s.2.2.2.1 s.2.2.2.2.1 s.2.2.2.2.2).map fun r =>
        r.map fun nodes => { nodes := nodes, primIndices := ids, buildType := .locallyOrderedClustered } := by
  unfold locStart at h
  unfold locbBuild
  have h1 : ¬(centers.length ≠ aabbs.length ∨ centers = [] ∨ aabbs = []) := by
    rintro (h | h | h)
    · omega
    · rw [h] at hc; cases hc
    · rw [h] at hn; cases hn
  have h2 : ¬aabbs.length ≤ 2 := by omega
  simp only [if_neg h1, if_neg h2]
  cases hs : (MortonEncoder.new (Aabb.unionOfList aabbs) MortonEncoder.maxGridDim).getSortedIndices aabbs centers with
  | none => rw [hs] at h; cases h
  | some sorted =>
    rw [hs, Option.bind_some] at h
    obtain ⟨leaves, hl, e⟩ := Option.map_eq_some_iff.1 h
    rw [Option.bind_some]
    simp only [hl, Option.bind_some]
    cases e
    simp only [hn]

/-- `m * 2^e` units. -/
def cpF (m : Int) (e : Nat) : F32 := F32.ofUnits (m * 2 ^ e) false

/-- A node from the mantissas and exponents of its bounds and its two integer fields. -/
def cp (a : Int) (a' : Nat) (b : Int) (b' : Nat) (c : Int) (c' : Nat) (x : Int) (d : Int) (d' : Nat) (e : Int) (e' : Nat)
    (f : Int) (f' : Nat) (y : Int) : BvhNode F32 :=
  ⟨⟨⟨cpF a a', cpF b b', cpF c c'⟩, x, ⟨cpF d d', cpF e e', cpF f f'⟩, y⟩⟩

/-- Run-length encoding: `(a, n, d)` is `a, a + d, a + 2 d, …` (`n` numbers). -/
def cpRuns (l : List (Nat × Nat × Nat)) : List Nat :=
  l.flatMap fun x => (List.range x.2.1).map fun i => x.1 + i * x.2.2

/-- Every node that occurs in the states below. -/
def cpTable : List (BvhNode F32) := [
  cp 0 0 0 0 0 0 (-1) 0 0 0 0 0 0 0,
  cp (-13743895) 112 (-8389447) 126 (-8389447) 126 1 8389027 127 8389447 126 8389447 126 0,
  cp 8387769 126 (-8389447) 126 (-8389447) 126 1 12583331 127 8389447 126 8389447 126 1,
  cp 12582493 127 (-8389447) 126 (-8389447) 126 1 5242985 129 8389447 126 8389447 126 2,
  cp 7339927 129 (-8389447) 126 (-8389447) 126 1 9437289 129 8389447 126 8389447 126 3,
  cp 15728535 129 (-8389447) 126 (-8389447) 126 1 2228237 132 8389447 126 8389447 126 4,
  cp 4063219 132 (-8389447) 126 (-8389447) 126 1 4325389 132 8389447 126 8389447 126 5,
  cp 8257523 132 (-8389447) 126 (-8389447) 126 1 8519693 132 8389447 126 8389447 126 6,
  cp 16646131 132 (-8389447) 126 (-8389447) 126 1 8454151 133 8389447 126 8389447 126 7,
  cp 16711673 133 (-8389447) 126 (-8389447) 126 1 8421379 134 8389447 126 8389447 126 8,
  cp 16744445 134 (-8389447) 126 (-8389447) 126 1 4202497 136 8389447 126 8389447 126 9,
  cp 8380415 136 (-8389447) 126 (-8389447) 126 1 8396801 136 8389447 126 8389447 126 10,
  cp 16769023 136 (-8389447) 126 (-8389447) 126 1 2049 149 8389447 126 8389447 126 11,
  cp 4095 149 (-8389447) 126 (-8389447) 126 1 4097 149 8389447 126 8389447 126 12,
  cp 8191 149 (-8389447) 126 (-8389447) 126 1 8193 149 8389447 126 8389447 126 13,
  cp 16383 149 (-8389447) 126 (-8389447) 126 1 16385 149 8389447 126 8389447 126 14,
  cp 32767 149 (-8389447) 126 (-8389447) 126 1 32769 149 8389447 126 8389447 126 15,
  cp 65535 149 (-8389447) 126 (-8389447) 126 1 65537 149 8389447 126 8389447 126 16,
  cp 131071 149 (-8389447) 126 (-8389447) 126 1 131073 149 8389447 126 8389447 126 17,
  cp 262143 149 (-8389447) 126 (-8389447) 126 1 262145 149 8389447 126 8389447 126 18,
  cp 524287 149 (-8389447) 126 (-8389447) 126 1 524289 149 8389447 126 8389447 126 19,
  cp 1048575 149 (-8389447) 126 (-8389447) 126 1 1048577 149 8389447 126 8389447 126 20,
  cp 2097151 149 (-8389447) 126 (-8389447) 126 1 2097153 149 8389447 126 8389447 126 21,
  cp 4194303 149 (-8389447) 126 (-8389447) 126 1 4194305 149 8389447 126 8389447 126 22,
  cp 8388607 149 (-8389447) 126 (-8389447) 126 1 8388609 149 8389447 126 8389447 126 23,
  cp 16777215 149 (-8389447) 126 (-8389447) 126 1 1 173 8389447 126 8389447 126 24,
  cp 1 174 (-8389447) 126 (-8389447) 126 1 1 174 8389447 126 8389447 126 25,
  cp 1 175 (-8389447) 126 (-8389447) 126 1 1 175 8389447 126 8389447 126 26,
  cp 1 176 (-8389447) 126 (-8389447) 126 1 1 176 8389447 126 8389447 126 27,
  cp 1 177 (-8389447) 126 (-8389447) 126 1 1 177 8389447 126 8389447 126 28,
  cp 1 178 (-8389447) 126 (-8389447) 126 1 1 178 8389447 126 8389447 126 29,
  cp 1 179 (-8389447) 126 (-8389447) 126 1 1 179 8389447 126 8389447 126 30,
  cp 1 180 (-8389447) 126 (-8389447) 126 1 1 180 8389447 126 8389447 126 31,
  cp 1 181 (-8389447) 126 (-8389447) 126 1 1 181 8389447 126 8389447 126 32,
  cp (-13743895) 112 (-8389447) 126 (-8389447) 126 (-1) 5242985 129 8389447 126 8389447 126 61,
  cp (-13743895) 112 (-8389447) 126 (-8389447) 126 (-1) 12583331 127 8389447 126 8389447 126 63,
  cp (-13743895) 112 (-8389447) 126 (-8389447) 126 (-1) 2228237 132 8389447 126 8389447 126 57,
  cp (-13743895) 112 (-8389447) 126 (-8389447) 126 (-1) 9437289 129 8389447 126 8389447 126 59,
  cp (-13743895) 112 (-8389447) 126 (-8389447) 126 (-1) 8519693 132 8389447 126 8389447 126 53,
  cp (-13743895) 112 (-8389447) 126 (-8389447) 126 (-1) 4325389 132 8389447 126 8389447 126 55,
  cp (-13743895) 112 (-8389447) 126 (-8389447) 126 (-1) 8421379 134 8389447 126 8389447 126 49,
  cp (-13743895) 112 (-8389447) 126 (-8389447) 126 (-1) 8454151 133 8389447 126 8389447 126 51,
  cp (-13743895) 112 (-8389447) 126 (-8389447) 126 (-1) 2049 149 8389447 126 8389447 126 43,
  cp (-13743895) 112 (-8389447) 126 (-8389447) 126 (-1) 8396801 136 8389447 126 8389447 126 45,
  cp (-13743895) 112 (-8389447) 126 (-8389447) 126 (-1) 4202497 136 8389447 126 8389447 126 47,
  cp (-13743895) 112 (-8389447) 126 (-8389447) 126 (-1) 16385 149 8389447 126 8389447 126 37,
  cp (-13743895) 112 (-8389447) 126 (-8389447) 126 (-1) 8193 149 8389447 126 8389447 126 39,
  cp (-13743895) 112 (-8389447) 126 (-8389447) 126 (-1) 4097 149 8389447 126 8389447 126 41,
  cp (-13743895) 112 (-8389447) 126 (-8389447) 126 (-1) 262145 149 8389447 126 8389447 126 29,
  cp (-13743895) 112 (-8389447) 126 (-8389447) 126 (-1) 131073 149 8389447 126 8389447 126 31,
  cp (-13743895) 112 (-8389447) 126 (-8389447) 126 (-1) 65537 149 8389447 126 8389447 126 33,
  cp (-13743895) 112 (-8389447) 126 (-8389447) 126 (-1) 32769 149 8389447 126 8389447 126 35,
  cp (-13743895) 112 (-8389447) 126 (-8389447) 126 (-1) 8388609 149 8389447 126 8389447 126 19,
  cp (-13743895) 112 (-8389447) 126 (-8389447) 126 (-1) 4194305 149 8389447 126 8389447 126 21,
  cp (-13743895) 112 (-8389447) 126 (-8389447) 126 (-1) 2097153 149 8389447 126 8389447 126 23,
  cp (-13743895) 112 (-8389447) 126 (-8389447) 126 (-1) 1048577 149 8389447 126 8389447 126 25,
  cp (-13743895) 112 (-8389447) 126 (-8389447) 126 (-1) 524289 149 8389447 126 8389447 126 27,
  cp (-13743895) 112 (-8389447) 126 (-8389447) 126 (-1) 1 181 8389447 126 8389447 126 1,
  cp (-13743895) 112 (-8389447) 126 (-8389447) 126 (-1) 1 180 8389447 126 8389447 126 3,
  cp (-13743895) 112 (-8389447) 126 (-8389447) 126 (-1) 1 179 8389447 126 8389447 126 5,
  cp (-13743895) 112 (-8389447) 126 (-8389447) 126 (-1) 1 178 8389447 126 8389447 126 7,
  cp (-13743895) 112 (-8389447) 126 (-8389447) 126 (-1) 1 177 8389447 126 8389447 126 9,
  cp (-13743895) 112 (-8389447) 126 (-8389447) 126 (-1) 1 176 8389447 126 8389447 126 11,
  cp (-13743895) 112 (-8389447) 126 (-8389447) 126 (-1) 1 175 8389447 126 8389447 126 13,
  cp (-13743895) 112 (-8389447) 126 (-8389447) 126 (-1) 1 174 8389447 126 8389447 126 15,
  cp (-13743895) 112 (-8389447) 126 (-8389447) 126 (-1) 1 173 8389447 126 8389447 126 17]

/-- Nodes given by their numbers in the table. -/
def cpNodes (l : List (Nat × Nat × Nat)) : List (BvhNode F32) := (cpRuns l).map fun i => cpTable.getD i BvhNode.new

/-- After 0 rounds. -/
def cp0 : LocState :=
  (cpNodes [(0, 32, 0), (1, 33, 1)],
    cpNodes [(0, 65, 0)],
    cpRuns [(65, 195, 0)], 32, 65, 65)

/-- After 2 rounds. -/
def cp2 : LocState :=
  (cpNodes [(0, 30, 0), (34, 1, 0), (4, 30, 1), (35, 1, 0), (3, 1, 0), (1, 2, 1)],
    cpNodes [(0, 31, 0), (35, 1, 0), (3, 31, 1), (1, 2, 1)],
    cpRuns [(65, 31, 0), (32, 1, 0), (31, 33, 1), (65, 31, 0), (1, 34, 0), (65, 65, 0)], 30, 61, 63)

/-- After 4 rounds. -/
def cp4 : LocState :=
  (cpNodes [(0, 28, 0), (36, 1, 0), (6, 28, 1), (37, 1, 0), (5, 1, 0), (34, 1, 0), (4, 1, 0), (35, 1, 0), (3, 1, 0),
      (1, 2, 1)],
    cpNodes [(0, 29, 0), (37, 1, 0), (5, 30, 1), (4, 1, 0), (35, 1, 0), (3, 1, 0), (1, 2, 1)],
    cpRuns [(65, 29, 0), (30, 1, 0), (29, 35, 1), (65, 29, 0), (1, 36, 0), (65, 65, 0)], 28, 57, 59)

/-- After 6 rounds. -/
def cp6 : LocState :=
  (cpNodes [(0, 26, 0), (38, 1, 0), (8, 26, 1), (39, 1, 0), (7, 1, 0), (36, 1, 0), (6, 1, 0), (37, 1, 0), (5, 1, 0),
      (34, 1, 0), (4, 1, 0), (35, 1, 0), (3, 1, 0), (1, 2, 1)],
    cpNodes [(0, 27, 0), (39, 1, 0), (7, 27, 1), (36, 1, 0), (6, 1, 0), (37, 1, 0), (5, 1, 0), (34, 1, 0), (4, 1, 0),
      (35, 1, 0), (3, 1, 0), (1, 2, 1)],
    cpRuns [(65, 27, 0), (28, 1, 0), (27, 37, 1), (65, 27, 0), (1, 38, 0), (65, 65, 0)], 26, 53, 55)

/-- After 8 rounds. -/
def cp8 : LocState :=
  (cpNodes [(0, 24, 0), (40, 1, 0), (10, 24, 1), (41, 1, 0), (9, 1, 0), (38, 1, 0), (8, 1, 0), (39, 1, 0), (7, 1, 0),
      (36, 1, 0), (6, 1, 0), (37, 1, 0), (5, 1, 0), (34, 1, 0), (4, 1, 0), (35, 1, 0), (3, 1, 0), (1, 2, 1)],
    cpNodes [(0, 25, 0), (41, 1, 0), (9, 25, 1), (38, 1, 0), (8, 1, 0), (39, 1, 0), (7, 1, 0), (36, 1, 0), (6, 1, 0),
      (37, 1, 0), (5, 1, 0), (34, 1, 0), (4, 1, 0), (35, 1, 0), (3, 1, 0), (1, 2, 1)],
    cpRuns [(65, 25, 0), (26, 1, 0), (25, 39, 1), (65, 25, 0), (1, 40, 0), (65, 65, 0)], 24, 49, 51)

/-- After 11 rounds. -/
def cp11 : LocState :=
  (cpNodes [(0, 21, 0), (42, 1, 0), (13, 21, 1), (43, 1, 0), (12, 1, 0), (44, 1, 0), (11, 1, 0), (40, 1, 0), (10, 1, 0),
      (41, 1, 0), (9, 1, 0), (38, 1, 0), (8, 1, 0), (39, 1, 0), (7, 1, 0), (36, 1, 0), (6, 1, 0), (37, 1, 0),
      (5, 1, 0), (34, 1, 0), (4, 1, 0), (35, 1, 0), (3, 1, 0), (1, 2, 1)],
    cpNodes [(0, 22, 0), (43, 1, 0), (12, 22, 1), (44, 1, 0), (11, 1, 0), (40, 1, 0), (10, 1, 0), (41, 1, 0), (9, 1, 0),
      (38, 1, 0), (8, 1, 0), (39, 1, 0), (7, 1, 0), (36, 1, 0), (6, 1, 0), (37, 1, 0), (5, 1, 0), (34, 1, 0),
      (4, 1, 0), (35, 1, 0), (3, 1, 0), (1, 2, 1)],
    cpRuns [(65, 22, 0), (23, 1, 0), (22, 42, 1), (65, 22, 0), (1, 43, 0), (65, 65, 0)], 21, 43, 45)

/-- After 14 rounds. -/
def cp14 : LocState :=
  (cpNodes [(0, 18, 0), (45, 1, 0), (16, 18, 1), (46, 1, 0), (15, 1, 0), (47, 1, 0), (14, 1, 0), (42, 1, 0), (13, 1, 0),
      (43, 1, 0), (12, 1, 0), (44, 1, 0), (11, 1, 0), (40, 1, 0), (10, 1, 0), (41, 1, 0), (9, 1, 0), (38, 1, 0),
      (8, 1, 0), (39, 1, 0), (7, 1, 0), (36, 1, 0), (6, 1, 0), (37, 1, 0), (5, 1, 0), (34, 1, 0), (4, 1, 0),
      (35, 1, 0), (3, 1, 0), (1, 2, 1)],
    cpNodes [(0, 19, 0), (46, 1, 0), (15, 19, 1), (47, 1, 0), (14, 1, 0), (42, 1, 0), (13, 1, 0), (43, 1, 0), (12, 1, 0),
      (44, 1, 0), (11, 1, 0), (40, 1, 0), (10, 1, 0), (41, 1, 0), (9, 1, 0), (38, 1, 0), (8, 1, 0), (39, 1, 0),
      (7, 1, 0), (36, 1, 0), (6, 1, 0), (37, 1, 0), (5, 1, 0), (34, 1, 0), (4, 1, 0), (35, 1, 0), (3, 1, 0), (1, 2, 1)],
    cpRuns [(65, 19, 0), (20, 1, 0), (19, 45, 1), (65, 19, 0), (1, 46, 0), (65, 65, 0)], 18, 37, 39)

/-- After 18 rounds. -/
def cp18 : LocState :=
  (cpNodes [(0, 14, 0), (48, 1, 0), (20, 14, 1), (49, 1, 0), (19, 1, 0), (50, 1, 0), (18, 1, 0), (51, 1, 0), (17, 1, 0),
      (45, 1, 0), (16, 1, 0), (46, 1, 0), (15, 1, 0), (47, 1, 0), (14, 1, 0), (42, 1, 0), (13, 1, 0), (43, 1, 0),
      (12, 1, 0), (44, 1, 0), (11, 1, 0), (40, 1, 0), (10, 1, 0), (41, 1, 0), (9, 1, 0), (38, 1, 0), (8, 1, 0),
      (39, 1, 0), (7, 1, 0), (36, 1, 0), (6, 1, 0), (37, 1, 0), (5, 1, 0), (34, 1, 0), (4, 1, 0), (35, 1, 0),
      (3, 1, 0), (1, 2, 1)],
    cpNodes [(0, 15, 0), (49, 1, 0), (19, 15, 1), (50, 1, 0), (18, 1, 0), (51, 1, 0), (17, 1, 0), (45, 1, 0), (16, 1, 0),
      (46, 1, 0), (15, 1, 0), (47, 1, 0), (14, 1, 0), (42, 1, 0), (13, 1, 0), (43, 1, 0), (12, 1, 0), (44, 1, 0),
      (11, 1, 0), (40, 1, 0), (10, 1, 0), (41, 1, 0), (9, 1, 0), (38, 1, 0), (8, 1, 0), (39, 1, 0), (7, 1, 0),
      (36, 1, 0), (6, 1, 0), (37, 1, 0), (5, 1, 0), (34, 1, 0), (4, 1, 0), (35, 1, 0), (3, 1, 0), (1, 2, 1)],
    cpRuns [(65, 15, 0), (16, 1, 0), (15, 49, 1), (65, 15, 0), (1, 50, 0), (65, 65, 0)], 14, 29, 31)

/-- After 23 rounds. -/
def cp23 : LocState :=
  (cpNodes [(0, 9, 0), (52, 1, 0), (25, 9, 1), (53, 1, 0), (24, 1, 0), (54, 1, 0), (23, 1, 0), (55, 1, 0), (22, 1, 0),
      (56, 1, 0), (21, 1, 0), (48, 1, 0), (20, 1, 0), (49, 1, 0), (19, 1, 0), (50, 1, 0), (18, 1, 0), (51, 1, 0),
      (17, 1, 0), (45, 1, 0), (16, 1, 0), (46, 1, 0), (15, 1, 0), (47, 1, 0), (14, 1, 0), (42, 1, 0), (13, 1, 0),
      (43, 1, 0), (12, 1, 0), (44, 1, 0), (11, 1, 0), (40, 1, 0), (10, 1, 0), (41, 1, 0), (9, 1, 0), (38, 1, 0),
      (8, 1, 0), (39, 1, 0), (7, 1, 0), (36, 1, 0), (6, 1, 0), (37, 1, 0), (5, 1, 0), (34, 1, 0), (4, 1, 0),
      (35, 1, 0), (3, 1, 0), (1, 2, 1)],
    cpNodes [(0, 10, 0), (53, 1, 0), (24, 10, 1), (54, 1, 0), (23, 1, 0), (55, 1, 0), (22, 1, 0), (56, 1, 0), (21, 1, 0),
      (48, 1, 0), (20, 1, 0), (49, 1, 0), (19, 1, 0), (50, 1, 0), (18, 1, 0), (51, 1, 0), (17, 1, 0), (45, 1, 0),
      (16, 1, 0), (46, 1, 0), (15, 1, 0), (47, 1, 0), (14, 1, 0), (42, 1, 0), (13, 1, 0), (43, 1, 0), (12, 1, 0),
      (44, 1, 0), (11, 1, 0), (40, 1, 0), (10, 1, 0), (41, 1, 0), (9, 1, 0), (38, 1, 0), (8, 1, 0), (39, 1, 0),
      (7, 1, 0), (36, 1, 0), (6, 1, 0), (37, 1, 0), (5, 1, 0), (34, 1, 0), (4, 1, 0), (35, 1, 0), (3, 1, 0), (1, 2, 1)],
    cpRuns [(65, 10, 0), (11, 1, 0), (10, 54, 1), (65, 10, 0), (1, 55, 0), (65, 65, 0)], 9, 19, 21)

/-- After 32 rounds. -/
def cp32 : LocState :=
  (cpNodes [(57, 2, 1), (33, 1, 0), (59, 1, 0), (32, 1, 0), (60, 1, 0), (31, 1, 0), (61, 1, 0), (30, 1, 0), (62, 1, 0),
      (29, 1, 0), (63, 1, 0), (28, 1, 0), (64, 1, 0), (27, 1, 0), (65, 1, 0), (26, 1, 0), (52, 1, 0), (25, 1, 0),
      (53, 1, 0), (24, 1, 0), (54, 1, 0), (23, 1, 0), (55, 1, 0), (22, 1, 0), (56, 1, 0), (21, 1, 0), (48, 1, 0),
      (20, 1, 0), (49, 1, 0), (19, 1, 0), (50, 1, 0), (18, 1, 0), (51, 1, 0), (17, 1, 0), (45, 1, 0), (16, 1, 0),
      (46, 1, 0), (15, 1, 0), (47, 1, 0), (14, 1, 0), (42, 1, 0), (13, 1, 0), (43, 1, 0), (12, 1, 0), (44, 1, 0),
      (11, 1, 0), (40, 1, 0), (10, 1, 0), (41, 1, 0), (9, 1, 0), (38, 1, 0), (8, 1, 0), (39, 1, 0), (7, 1, 0),
      (36, 1, 0), (6, 1, 0), (37, 1, 0), (5, 1, 0), (34, 1, 0), (4, 1, 0), (35, 1, 0), (3, 1, 0), (1, 2, 1)],
    cpNodes [(0, 1, 0), (58, 1, 0), (33, 1, 0), (59, 1, 0), (32, 1, 0), (60, 1, 0), (31, 1, 0), (61, 1, 0), (30, 1, 0),
      (62, 1, 0), (29, 1, 0), (63, 1, 0), (28, 1, 0), (64, 1, 0), (27, 1, 0), (65, 1, 0), (26, 1, 0), (52, 1, 0),
      (25, 1, 0), (53, 1, 0), (24, 1, 0), (54, 1, 0), (23, 1, 0), (55, 1, 0), (22, 1, 0), (56, 1, 0), (21, 1, 0),
      (48, 1, 0), (20, 1, 0), (49, 1, 0), (19, 1, 0), (50, 1, 0), (18, 1, 0), (51, 1, 0), (17, 1, 0), (45, 1, 0),
      (16, 1, 0), (46, 1, 0), (15, 1, 0), (47, 1, 0), (14, 1, 0), (42, 1, 0), (13, 1, 0), (43, 1, 0), (12, 1, 0),
      (44, 1, 0), (11, 1, 0), (40, 1, 0), (10, 1, 0), (41, 1, 0), (9, 1, 0), (38, 1, 0), (8, 1, 0), (39, 1, 0),
      (7, 1, 0), (36, 1, 0), (6, 1, 0), (37, 1, 0), (5, 1, 0), (34, 1, 0), (4, 1, 0), (35, 1, 0), (3, 1, 0), (1, 2, 1)],
    cpRuns [(65, 1, 0), (2, 1, 0), (1, 63, 1), (65, 1, 0), (1, 64, 0), (65, 65, 0)], 0, 1, 3)

def doublingBoxes : List (Aabb F32) := doubling.map fun p => (cubePrim p.1 p.2).aabb
def doublingCenters : List (Vec3 F32) := (doubling.map fun p => cubePrim p.1 p.2).map Prim.center

set_option maxRecDepth 100000 in
theorem run_start : locStart doublingBoxes doublingCenters = some (List.range 33, cp0) := by decide +kernel
set_option maxRecDepth 100000 in
theorem run_2 : locRounds 2 cp0 = some cp2 := by decide +kernel
set_option maxRecDepth 100000 in
theorem run_4 : locRounds 2 cp2 = some cp4 := by decide +kernel
set_option maxRecDepth 100000 in
theorem run_6 : locRounds 2 cp4 = some cp6 := by decide +kernel
set_option maxRecDepth 100000 in
theorem run_8 : locRounds 2 cp6 = some cp8 := by decide +kernel
set_option maxRecDepth 100000 in
theorem run_11 : locRounds 3 cp8 = some cp11 := by decide +kernel
set_option maxRecDepth 100000 in
theorem run_14 : locRounds 3 cp11 = some cp14 := by decide +kernel
set_option maxRecDepth 100000 in
theorem run_18 : locRounds 4 cp14 = some cp18 := by decide +kernel
set_option maxRecDepth 100000 in
theorem run_23 : locRounds 5 cp18 = some cp23 := by decide +kernel
set_option maxRecDepth 100000 in
theorem run_32 : locRounds 9 cp23 = some cp32 := by decide +kernel

/-- The BVH built. -/
def doublingBvh : Bvh F32 := { nodes := cp32.1, primIndices := List.range 33, buildType := .locallyOrderedClustered }

theorem doubling_built : (cubeScene doubling none : Builder F32).constructLocb (List.range 33) 1 40 =
    .ok (some (some doublingBvh)) := by
  have hb : (cubeScene doubling none : Builder F32).check (List.range 33) = .ok doublingBoxes := by rfl
  unfold Builder.constructLocb
  rw [hb]
  change Except.ok (locbBuild 1 40 doublingBoxes doublingCenters) = _
  rw [locStart_build 40 (by rfl) (by rfl) run_start,
    locRounds_loop 2 38 run_2, locRounds_loop 2 36 run_4, locRounds_loop 2 34 run_6,
    locRounds_loop 2 32 run_8, locRounds_loop 3 29 run_11, locRounds_loop 3 26 run_14,
    locRounds_loop 4 22 run_18, locRounds_loop 5 17 run_23, locRounds_loop 9 8 run_32]
  rfl

set_option maxRecDepth 100000 in
theorem deepRun_locb : deepRun ((cubeScene doubling none).constructLocb (List.range 33) 1 40) deepRayLoc =
    some (32, .panicked) := by
  rw [doubling_built]
  decide +kernel

set_option maxRecDepth 100000 in
theorem deepRun_binned : deepRun ((cubeScene (growing 33 []) none).constructBinnedSah (List.range 33)
    (List.replicate 200 0)) deepRayBin = some (32, .panicked) := by
  decide +kernel

theorem deepRun_sound {r ray d} (h : deepRun r ray = some (d, .panicked)) : ∃ bvh T, r = .ok (some (some bvh)) ∧
    Unfolds bvh.nodes 0 T ∧ T.depth = d ∧ (bvh.forIndices (fun r _ => (r, false)) 1000 ray).ending = .panicked := by
  obtain ⟨⟨bvh, T⟩, e, h2⟩ := Option.map_eq_some_iff.1 h
  obtain ⟨e1, e2⟩ := builtTree_some e
  simp only [Prod.mk.injEq] at h2
  exact ⟨bvh, T, e1, e2, h2.1, h2.2⟩

/-- C62 is false for the clustering builder: 33 unit cubes with centres at 1, 2, 4, …, 2^32 on the x axis, all coordinates
finite in binary32, give a tree of depth 32, and a ray along the axis makes the index iterator panic (write past its 32
stack entries, caught by the bounds check). -/
theorem C62_locb_panics : ∃ (b : Builder F32) (order : List Nat) (bvh : Bvh F32) (ray : Ray F32), b.Legal order ∧
    b.primitives.length = 33 ∧ b.Returns order bvh ∧ ray.hasNaN = false ∧
    (bvh.forIndices (fun r _ => (r, false)) 1000 ray).ending = .panicked := by
  obtain ⟨bvh, T, e, _, _, hp⟩ := deepRun_sound deepRun_locb
  exact ⟨_, List.range 33, bvh, deepRayLoc, cubeScene_legal doubling none (by decide) (by decide), rfl,
    .inr ⟨1, 40, by omega, e⟩, by decide +kernel, hp⟩

/-- C62 is false for the binned builder too, with default options and 33 cubes. -/
theorem C62_binned_panics : ∃ (b : Builder F32) (order : List Nat) (bvh : Bvh F32) (ray : Ray F32), b.Legal order ∧
    b.primitives.length = 33 ∧ b.Returns order bvh ∧ ray.hasNaN = false ∧
    (bvh.forIndices (fun r _ => (r, false)) 1000 ray).ending = .panicked := by
  obtain ⟨bvh, T, e, _, _, hp⟩ := deepRun_sound deepRun_binned
  exact ⟨_, List.range 33, bvh, deepRayBin, cubeScene_legal (growing 33 []) none (by decide +kernel) (by decide +kernel),
    by decide +kernel, .inl ⟨_, e⟩, by decide +kernel, hp⟩

end Rtbvh
