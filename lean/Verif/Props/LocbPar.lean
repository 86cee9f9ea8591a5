import Verif.Proofs.LocbPar
import Verif.Props.LocRule
/- Property C74: the clustering build does not depend on how the threads share the parallel loops. -/
namespace Rtbvh
variable {F : Type} [FloatOps F]

/-- C74. Whatever the order in which the worker threads execute the iterations of the parallel loops of each round, the
clustering build returns the same as the sequential build: the same BVH, or the same panic. -/
theorem C74_locb_thread_order (b : Builder F) (sh : Nat → Shuffle) (order : List Nat) (t fuel : Nat) (ht : 0 < t)
    (h : b.Legal order) (hn : b.primitives.length ≤ 2 ^ 29) (h1 : ∀ k l, ((sh k).mark l).Perm l)
    (h2 : ∀ k l, ((sh k).merge l).Perm l) :
    b.constructLocbPar sh order t fuel = b.constructLocb order t fuel := by
  have hb := Builder.boxes_length h
  unfold Builder.constructLocbPar Builder.constructLocb
  rw [Builder.check_legal h]
  simp only
  rw [build_order ht (by rw [hb]; exact hn) sh h1 h2]

/-- Not vacuous: a scene of five cubes, all iterations in reverse order. -/
example : clusterScene.Legal (List.range 5) ∧ clusterScene.primitives.length ≤ 2 ^ 29 ∧
    (∀ l : List Nat, l.reverse.Perm l) ∧
    (built (clusterScene.constructLocbPar (fun _ => ⟨List.reverse, List.reverse⟩) (List.range 5) 3 4)).map
      (fun b => (b.indices, b.nodes.map fun n => (n.bounds.extra1, n.bounds.extra2))) =
    some ([1, 3, 0, 4, 2],
      [(-1, 1), (-1, 5), (-1, 3), (-1, 7), (1, 4), (1, 0), (1, 1), (1, 2), (1, 3)]) :=
  ⟨cubeScene_legal _ _ (by decide) (by decide), by decide, List.reverse_perm, by decide +kernel⟩

end Rtbvh
