import Verif.Basic

/-!
# Model of the trie of `src/common/utils.c`

A trie node has a key byte, data, a `next` sibling and a `child`. Pointers are
modelled as an inductive tree (`nil` is `NULL`): every node is owned by exactly
one pointer, which holds because nodes are only linked when created
(utils.c:566-569 and 592) and never relinked.
-/

namespace Blogc

/-- `bc_trie_node_t` (src/common/utils.h), with `NULL` as `nil`. -/
inductive Trie (α : Type u) where
  | nil
  | node (key : Byte) (data : Option α) (next child : Trie α)
  deriving Repr

namespace Trie

variable {α : Type u}

/-- The current key byte `*key`: the terminator when the key is used up. -/
def keyByte : Str → Byte
  | [] => 0
  | c :: _ => c

/-- The branch of src/common/utils.c:560-572 taken repeatedly on an absent
child: a chain of nodes for the rest of the key, ending in a node of key 0. -/
def chain : Str → α → Trie α
  | [], d => .node 0 (some d) .nil .nil
  | c :: rest, d => .node c none .nil (chain rest d)

/-- `bc_trie_insert`, src/common/utils.c:547-604, as a recursion on the forest
reached (`trie->root` or `parent->child`). Returns the new forest and the data
handed to `free_func` (line 597-598), oldest first. The search loop of lines
577-580 is the descent through `next`; the append of lines 587-593 is the `nil`
case reached through `next`. `data` is non-NULL (line 550). -/
def insert : Trie α → Str → α → Trie α × List α
  | .nil, key, d => (chain key d, [])
  | .node k dat nx ch, key, d =>
    if k = keyByte key then
      match key with
      | [] => (.node k (some d) nx ch, dat.toList)
      | _ :: rest =>
        let r := insert ch rest d
        (.node k dat nx r.1, r.2)
    else
      let r := insert nx key d
      (.node k dat r.1 ch, r.2)

/-- `bc_trie_lookup`, src/common/utils.c:607-633. -/
def lookup : Trie α → Str → Option α
  | .nil, _ => none
  | .node k dat nx ch, key =>
    if k = keyByte key then
      if k = 0 then dat
      else
        match key with
        | [] => none
        | _ :: rest => lookup ch rest
    else lookup nx key

/-- `bc_trie_size`, src/common/utils.c:636-659. -/
def size : Trie α → Nat
  | .nil => 0
  | .node k _ nx ch => (if k = 0 then 1 else 0) + size nx + size ch

/-- `bc_trie_foreach`, src/common/utils.c:662-694: the calls of the callback, in
order, as (key, data) pairs. -/
def foreach : Trie α → Str → List (Str × Option α)
  | .nil, _ => []
  | .node k dat nx ch, pre =>
    (if k = 0 then [(pre, dat)] else []) ++ foreach ch (pre ++ [k]) ++ foreach nx pre

/-- `bc_trie_free`, src/common/utils.c:524-544: the data handed to `free_func`,
in order. -/
def free : Trie α → List α
  | .nil => []
  | .node _ dat nx ch => dat.toList ++ free nx ++ free ch

/-- A history of insertions on a fresh trie (`bc_trie_new`, utils.c:514-521):
the trie and the data released so far. -/
def inserts (h : List (Str × α)) : Trie α × List α :=
  h.foldl (fun st kv => let r := insert st.1 kv.1 kv.2; (r.1, st.2 ++ r.2)) (.nil, [])

end Trie

end Blogc
