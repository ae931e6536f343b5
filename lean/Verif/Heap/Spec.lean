import Verif.Heap.Lemmas
/-!
# What a conversion refers to
-/
set_option autoImplicit false

namespace Verif.Heap

variable {P : Type}

local notation "Addr" => Nat

/-- Specification: the conversions code generation of an object descends into: its input, the object
a method is called on, its parts, its condition, its sort key and the conversions of its labels. -/
def children (h : Heap P) (n : Node P) : List Addr :=
  n.pred.toList ++ n.selfRef.toList ++ n.args ++ n.cond.toList ++ n.key.toList ++
    (n.labels.elim [] fun d => (h.dicts[d]?).getD []).map Prod.snd

/-- Specification: `x` is used by `a`, directly or through other conversions. -/
inductive Uses (h : Heap P) : Addr → Addr → Prop
  | direct {a n c} : h.nodes[a]? = some n → c ∈ children h n → Uses h a c
  | through {a n c x} : h.nodes[a]? = some n → c ∈ children h n → Uses h c x → Uses h a x

/-- Specification: `q` is an earlier stage of the pipe ending in `a`. -/
inductive Above (h : Heap P) : Addr → Addr → Prop
  | one {a n p} : h.nodes[a]? = some n → n.pred = some p → Above h a p
  | more {a n p q} : h.nodes[a]? = some n → n.pred = some p → Above h p q → Above h a q

/-- The tag (class and parameters) of an object. -/
def tagAt (h : Heap P) (a : Addr) : Option P := (h.nodes[a]?).map (·.tag)

/-- All references of existing objects point to existing objects. -/
def Closed (h : Heap P) : Prop :=
  ∀ (i : Nat) n, h.nodes[i]? = some n →
    (∀ c ∈ children h n, c < h.nodes.length) ∧ (∀ d, n.labels = some d → d < h.dicts.length) ∧
    (∀ p ∈ n.deps, p < h.nodes.length)

/-- No earlier stage of the pipe ending in `a` is of the classes `own`. -/
def Clean (own : P → Bool) (h : Heap P) (a : Addr) : Prop :=
  ∀ q n, Above h a q → h.nodes[q]? = some n → own n.tag = false

end Verif.Heap
