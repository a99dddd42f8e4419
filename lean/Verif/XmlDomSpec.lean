import Verif.XmlDom
set_option autoImplicit false
set_option linter.unusedSectionVars false
/-!
What the nodes of tinyxml are to their user: trees, each node with the list of its children, in order.  Nodes are named by numbers,
in the order in which they are made.
-/
namespace Gear.Xml.Dom.Spec

variable {D : Type}

/-- A node with its name, its kind, its data and its children. -/
inductive Tree (D : Type) where
  | node (p : Ptr) (k : Kind) (d : D) (kids : List (Tree D))

namespace Tree

def ptr : Tree D → Ptr
  | node p _ _ _ => p

def kind : Tree D → Kind
  | node _ k _ _ => k

def data : Tree D → D
  | node _ _ d _ => d

def kids : Tree D → List (Tree D)
  | node _ _ _ ks => ks

end Tree

mutual

/-- The node and all below it. -/
def Tree.all : Tree D → List (Tree D)
  | .node p k d ks => .node p k d ks :: allOf ks

/-- All nodes of some trees. -/
def allOf : List (Tree D) → List (Tree D)
  | [] => []
  | t :: ts => t.all ++ allOf ts

end

/-- The names of all nodes of some trees. -/
def names (ts : List (Tree D)) : List Ptr := (allOf ts).map Tree.ptr

mutual

/-- The tree in which the children of the node named `p` are changed by `g`. -/
def Tree.edit (p : Ptr) (g : List (Tree D) → List (Tree D)) : Tree D → Tree D
  | .node q k d ks => if q = p then .node q k d (g ks) else .node q k d (editOf p g ks)

/-- The same in a list of trees. -/
def editOf (p : Ptr) (g : List (Tree D) → List (Tree D)) : List (Tree D) → List (Tree D)
  | [] => []
  | t :: ts => t.edit p g :: editOf p g ts

end

mutual

/-- The tree in which the data of the node named `p` is `e`. -/
def Tree.setData (p : Ptr) (e : D) : Tree D → Tree D
  | .node q k d ks => .node q k (if q = p then e else d) (setDataOf p e ks)

/-- The same in a list of trees. -/
def setDataOf (p : Ptr) (e : D) : List (Tree D) → List (Tree D)
  | [] => []
  | t :: ts => t.setData p e :: setDataOf p e ts

end

mutual

/-- A copy of a tree, whose nodes are named from `n` on, and the next name.  Texts, comments and the like are copied without
children. -/
def Tree.copy (n : ℕ) : Tree D → Tree D × ℕ
  | .node _ .leaf d _ => (.node n .leaf d [], n + 1)
  | .node _ .document d ks => (.node n .document d (copyOf (n + 1) ks).1, (copyOf (n + 1) ks).2)
  | .node _ .element d ks => (.node n .element d (copyOf (n + 1) ks).1, (copyOf (n + 1) ks).2)

/-- Copies of some trees. -/
def copyOf (n : ℕ) : List (Tree D) → List (Tree D) × ℕ
  | [] => ([], n)
  | t :: ts => ((t.copy n).1 :: (copyOf (t.copy n).2 ts).1, (copyOf (t.copy n).2 ts).2)

end

/-- The list in which the tree of the name `b` is replaced by what `r` makes of it. -/
def at_ (b : Ptr) (r : Tree D → List (Tree D)) (ks : List (Tree D)) : List (Tree D) :=
  ks.flatMap fun t => if t.ptr = b then r t else [t]

/-- The trees there are, and how many nodes were made. -/
structure Forest (D : Type) where
  trees : List (Tree D)
  made : ℕ

/-- The tree below the node named `p`. -/
def Forest.find (F : Forest D) (p : Ptr) : Option (Tree D) := (allOf F.trees).find? fun t => t.ptr = p

/-- What a call does to the trees, and the name it returns; `none` for calls that are not allowed: every node named must exist; only a
tree of its own can be linked, to a node outside it, and only a tree of its own can be deleted; only a child can be removed; and a node
can only be assigned one of its kind, none of them being in the tree of the other. -/
def Forest.step (F : Forest D) : Op D → Option (Forest D × Option Ptr)
  | .make k d => some (⟨F.trees ++ [.node F.made k d []], F.made + 1⟩, some F.made)
  | .setData p d =>
    match F.find p with
    | some _ => some (⟨setDataOf p d F.trees, F.made⟩, none)
    | none => none
  | .link p q =>
    match F.trees.find? (fun t => t.ptr = q), F.find p with
    | some t, some _ =>
      if p ∈ names [t] then none
      else some (⟨editOf p (fun ks => ks ++ [t]) (F.trees.filter fun t => t.ptr ≠ q), F.made⟩, some q)
    | _, _ => none
  | .insertEnd p a =>
    match F.find p, F.find a with
    | some _, some t => some (⟨editOf p (fun ks => ks ++ [(t.copy F.made).1]) F.trees, (t.copy F.made).2⟩, some F.made)
    | _, _ => none
  | .insertBefore p b a =>
    match F.find p, F.find a, b with
    | some _, some _, none => some (F, none)
    | some s, some t, some b =>
      match F.find b with
      | none => none
      | some _ =>
        if b ∈ s.kids.map Tree.ptr then
          some (⟨editOf p (at_ b fun u => [(t.copy F.made).1, u]) F.trees, (t.copy F.made).2⟩, some F.made)
        else some (F, none)
    | _, _, _ => none
  | .insertAfter p b a =>
    match F.find p, F.find a, b with
    | some _, some _, none => some (F, none)
    | some s, some t, some b =>
      match F.find b with
      | none => none
      | some _ =>
        if b ∈ s.kids.map Tree.ptr then
          some (⟨editOf p (at_ b fun u => [u, (t.copy F.made).1]) F.trees, (t.copy F.made).2⟩, some F.made)
        else some (F, none)
    | _, _, _ => none
  | .replace p b a =>
    match F.find p, F.find a, F.find b with
    | some s, some t, some _ =>
      if b ∈ s.kids.map Tree.ptr then
        some (⟨editOf p (at_ b fun _ => [(t.copy F.made).1]) F.trees, (t.copy F.made).2⟩, some F.made)
      else some (F, none)
    | _, _, _ => none
  | .remove p b =>
    match F.find p with
    | some s =>
      if b ∈ s.kids.map Tree.ptr then some (⟨editOf p (at_ b fun _ => []) F.trees, F.made⟩, none) else none
    | none => none
  | .clear p =>
    match F.find p with
    | some _ => some (⟨editOf p (fun _ => []) F.trees, F.made⟩, none)
    | none => none
  | .delete p =>
    if p ∈ F.trees.map Tree.ptr then some (⟨F.trees.filter fun t => t.ptr ≠ p, F.made⟩, none) else none
  | .assign p b =>
    match F.find p, F.find b with
    | some s, some t =>
      if b ∈ names [s] ∨ p ∈ names [t] ∨ s.kind ≠ t.kind ∨ s.kind = .leaf then none
      else some (⟨setDataOf p t.data (editOf p (fun _ => (copyOf F.made t.kids).1) F.trees), (copyOf F.made t.kids).2⟩, none)
    | _, _ => none

/-- Calls one after the other. -/
def Forest.run (F : Forest D) : List (Op D) → Option (Forest D × List (Option Ptr))
  | [] => some (F, [])
  | o :: os => do
    let r ← F.step o
    let s ← r.1.run os
    some (s.1, r.2 :: s.2)

/-! ### What a copy is -/

/-- A tree without names. -/
inductive Content (D : Type) where
  | node (k : Kind) (d : D) (kids : List (Content D))

mutual

/-- A tree without its names. -/
def Tree.content : Tree D → Content D
  | .node _ k d ks => .node k d (contentOf ks)

def contentOf : List (Tree D) → List (Content D)
  | [] => []
  | t :: ts => t.content :: contentOf ts

end

/-- Texts, comments and the like have no children. -/
def LeavesBare (ts : List (Tree D)) : Prop := ∀ t ∈ allOf ts, t.kind = .leaf → t.kids = []

/-! ### Walking -/

/-- The pointer `r`, and the pointers found from there with `step`, are the list up to the null pointer. -/
def Visits (step : Ptr → Run (Option Ptr)) : Run (Option Ptr) → List Ptr → Prop
  | r, [] => r = .ok none
  | r, x :: xs => r = .ok (some x) ∧ Visits step (step x) xs

end Gear.Xml.Dom.Spec
