import Verif.Model.FfiConc
/- What it means that concurrent calls of the C interface behave like calls made one after the other. -/
namespace Rtbvh
variable {F : Type}

/-- Call `k` returned before call `k'` was made. -/
def ReturnedBefore (tr : List (FfiLabel F)) (k k' : Nat) : Prop :=
  ∃ tr₁ tr₂, tr = tr₁ ++ tr₂ ∧ (∃ c o, .ret k c o ∈ tr₁) ∧ ∃ op, .invoke k' op ∈ tr₂

/-- `k` stands before `k'` in the order. -/
def StandsBefore {α : Type} (lin : List (Nat × α)) (k k' : Nat) : Prop :=
  ∃ l₁ l₂, lin = l₁ ++ l₂ ∧ k ∈ l₁.map Prod.fst ∧ k' ∈ l₂.map Prod.fst

/-- `lin` is a sequential explanation of what was seen of the manager's calls, ending with the structures `m`: it is a
history of whole calls; every call stands in it at most once, and was made; every call that has returned stands in it
with the code and handle it returned; and a call that returned before another was made stands before it. -/
structure Linearizes [FloatOps F] (tr : List (FfiLabel F)) (lin : List (Nat × Event F)) (m : Manager F) : Prop where
  history : History .empty (lin.map Prod.snd) m
  once : (lin.map Prod.fst).Nodup
  made : ∀ k e, (k, e) ∈ lin → .invoke k (.manage e.call) ∈ tr
  returned : ∀ k call c o, .invoke k (.manage call) ∈ tr → .ret k c o ∈ tr → (k, ⟨call, c, o⟩) ∈ lin
  order : ∀ k k' call, .invoke k (.manage call) ∈ tr → ReturnedBefore tr k k' → k' ∈ lin.map Prod.fst →
    StandsBefore lin k k'

end Rtbvh
