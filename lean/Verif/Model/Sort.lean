import Verif.Basic

/-!
# Model of `src/common/sort.c`
-/

namespace Blogc

/-- State of `bc_slist_sort`, src/common/sort.c:16-18. The list nodes never
move; node `i` is its index and `data` holds the `data` fields. `calls` counts
the calls of the comparison function. -/
structure SortState (α : Type u) where
  data : List α
  calls : Nat
  swapped : Bool

variable {α : Type u}

/-- `node->next` for the node at index `i` of a list of `n` nodes; `none` is
`NULL`. -/
def nextNode (n i : Nat) : Option Nat := if i + 1 < n then some (i + 1) else none

/-- The inner loop `while (lptr->next != rptr)`, src/common/sort.c:24-33.
`cmp k a b` is the answer of the `k`-th call, so that the comparison function
may be stateful or inconsistent. The outcome is the final `lptr`. `none` means
the fuel ran out; dereferencing `NULL` is undefined. -/
def sortInner (cmp : Nat → α → α → Int) (rptr : Option Nat) :
    (fuel : Nat) → (lptr : Nat) → SortState α → Option (Res (Nat × SortState α))
  | 0, _, _ => none
  | fuel + 1, lptr, st =>
    let next := nextNode st.data.length lptr
    if next = rptr then some (.ok (lptr, st))
    else
      match next with
      | none => some .ub                       -- `lptr->next->data` with NULL
      | some nx =>
        match st.data[lptr]?, st.data[nx]? with
        | some a, some b =>
          if 0 < cmp st.calls a b then
            sortInner cmp rptr fuel nx
              { data := (st.data.set lptr b).set nx a, calls := st.calls + 1, swapped := true }
          else
            sortInner cmp rptr fuel nx { st with calls := st.calls + 1 }
        | _, _ => some .ub

/-- The outer loop `do { ... } while (swapped)`, src/common/sort.c:20-36. -/
def sortOuter (cmp : Nat → α → α → Int) :
    (fuel : Nat) → (rptr : Option Nat) → (data : List α) → (calls : Nat) → Option (Res (List α))
  | 0, _, _, _ => none
  | fuel + 1, rptr, data, calls =>
    match sortInner cmp rptr (fuel + 1) 0 { data, calls, swapped := false } with
    | none => none
    | some .ub => some .ub
    | some (.ok (lptr, st)) =>
      if st.swapped then sortOuter cmp fuel (some lptr) st.data st.calls
      else some (.ok st.data)

/-- `bc_slist_sort`, src/common/sort.c:9-39. -/
def slistSort (cmp : Nat → α → α → Int) (fuel : Nat) (l : List α) : Option (Res (List α)) :=
  if l.isEmpty then some (.ok []) else sortOuter cmp fuel none l 0

end Blogc
