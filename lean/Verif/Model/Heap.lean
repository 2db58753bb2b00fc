import Verif.Run
import Verif.Model.Trie

/-!
# Model of the lists and tables of `src/common/utils.c` in memory

The other models use inductive lists and trees for `bc_slist_t` and `bc_trie_t`. Here
they are blocks of memory that point to each other, as in the C code. An access to
memory that is not allocated, or that is NULL, is undefined behaviour. The data that the
caller stores are values (NULL is `none`), and calls of `free_func` are recorded.
Memory does not run out (`bc_malloc`, src/common/utils.c:15-25, ends the process
otherwise).
-/

namespace Blogc.Mem

open Blogc

abbrev Ptr := Option Nat

/-- A block of memory. -/
inductive Cell (α : Type) where
  /-- `bc_slist_t`, src/common/utils.h:21-24 -/
  | item (next : Ptr) (data : Option α)
  /-- `struct _bc_trie_t`, src/common/utils.h:81-84; `ff` tells if `free_func` is not NULL -/
  | trie (root : Ptr) (ff : Bool)
  /-- `bc_trie_node_t`, src/common/utils.h:75-79 -/
  | node (key : Byte) (data : Option α) (next child : Ptr)

/-- The memory: what is allocated at each address. -/
abbrev Heap (α : Type) := Nat → Option (Cell α)

variable {α : Type}

/-- A block is allocated, or its contents change. -/
def put (h : Heap α) (a : Nat) (c : Cell α) : Heap α := fun i => if i = a then some c else h i

/-- `free`: only what is allocated may be released. -/
def release (h : Heap α) (a : Nat) : Run (Heap α) :=
  if (h a).isSome then .ok fun i => if i = a then none else h i else .ub

/-- The fields of a list node. -/
def getItem (h : Heap α) (p : Ptr) : Run (Ptr × Option α) :=
  match p.bind h with
  | some (.item next data) => .ok (next, data)
  | _ => .ub

/-- `p->next = next` for a list node. -/
def setItemNext (h : Heap α) (a : Nat) (next : Ptr) : Run (Heap α) :=
  match h a with
  | some (.item _ data) => .ok (put h a (.item next data))
  | _ => .ub

/-- The fields of a table. -/
def getTrie (h : Heap α) (a : Nat) : Run (Ptr × Bool) :=
  match h a with
  | some (.trie root ff) => .ok (root, ff)
  | _ => .ub

def setRoot (h : Heap α) (a : Nat) (root : Ptr) : Run (Heap α) :=
  match h a with
  | some (.trie _ ff) => .ok (put h a (.trie root ff))
  | _ => .ub

/-- The fields of a node of a table. -/
structure Node (α : Type) where
  key : Byte
  data : Option α
  next : Ptr
  child : Ptr

def getNode (h : Heap α) (p : Ptr) : Run (Node α) :=
  match p.bind h with
  | some (.node key data next child) => .ok ⟨key, data, next, child⟩
  | _ => .ub

def setNode (h : Heap α) (p : Ptr) (f : Node α → Node α) : Run (Heap α) :=
  match p with
  | none => .ub
  | some a =>
    match h a with
    | some (.node key data next child) =>
      let n := f ⟨key, data, next, child⟩
      .ok (put h a (.node n.key n.data n.next n.child))
    | _ => .ub

/-! ## Lists -/

/-- The loop of src/common/utils.c:54 and 82. -/
def lastItem : Nat → Heap α → Nat → Run Nat
  | 0, _, _ => .out
  | n + 1, h, a => do
    let i ← getItem h (some a)
    match i.1 with
    | none => .ok a
    | some b => lastItem n h b

/-- `bc_slist_append`, src/common/utils.c:43-58. `al` is `malloc`. -/
def append (fuel : Nat) (al : Heap α → Nat) (h : Heap α) (l : Ptr) (data : Option α) : Run (Heap α × Ptr) :=
  let a := al h
  let h := put h a (.item none data)
  match l with
  | none => .ok (h, some a)
  | some l => do
    let t ← lastItem fuel h l
    let h ← setItemNext h t (some a)
    .ok (h, some l)

/-- `bc_slist_prepend`, src/common/utils.c:61-69. -/
def prepend (al : Heap α → Nat) (h : Heap α) (l : Ptr) (data : Option α) : Heap α × Ptr :=
  (put h (al h) (.item l data), some (al h))

/-- `bc_slist_append_list`, src/common/utils.c:72-85. -/
def appendList (fuel : Nat) (h : Heap α) (l n : Ptr) : Run (Heap α × Ptr) :=
  match l with
  | none => .ok (h, n)
  | some l =>
    match n with
    | none => .ok (h, some l)
    | some n => do
      let t ← lastItem fuel h l
      let h ← setItemNext h t (some n)
      .ok (h, some l)

/-- `bc_slist_free_full` and `bc_slist_free`, src/common/utils.c:88-105: the memory, and
the data handed to `free_func`. -/
def freeList (ff : Bool) : Nat → Heap α → Ptr → Run (Heap α × List α)
  | 0, _, _ => .out
  | _ + 1, h, none => .ok (h, [])
  | n + 1, h, some a => do
    let i ← getItem h (some a)
    let h ← release h a
    let r ← freeList ff n h i.1
    .ok (r.1, (if ff then i.2.toList else []) ++ r.2)

/-- `bc_slist_length`, src/common/utils.c:108-117. -/
def length : Nat → Heap α → Ptr → Run Nat
  | 0, _, _ => .out
  | _ + 1, _, none => .ok 0
  | n + 1, h, some a => do
    let i ← getItem h (some a)
    let r ← length n h i.1
    .ok (r + 1)

/-- A loop of the callers over the data of a list, `for (l = list; l != NULL; l = l->next)`
(for example src/blogc/loader.c:144). -/
def items : Nat → Heap α → Ptr → Run (List (Option α))
  | 0, _, _ => .out
  | _ + 1, _, none => .ok []
  | n + 1, h, some a => do
    let i ← getItem h (some a)
    let r ← items n h i.1
    .ok (i.2 :: r)

/-! ## Tables -/

/-- `bc_trie_new`, src/common/utils.c:514-521. -/
def newTrie (al : Heap α → Nat) (ff : Bool) (h : Heap α) : Heap α × Nat := (put h (al h) (.trie none ff), al h)

/-- The loop of src/common/utils.c:575-580, and that of 616-624: `previous` and `tmp`. -/
def search : Nat → Heap α → Byte → Ptr → Ptr → Run (Ptr × Ptr)
  | 0, _, _, _, _ => .out
  | _ + 1, _, _, previous, none => .ok (previous, none)
  | n + 1, h, k, previous, some a => do
    let x ← getNode h (some a)
    if x.key = k then .ok (previous, some a) else search n h k (some a) x.next

/-- Lines 561-565 and 587-591. -/
def newNode (al : Heap α → Nat) (h : Heap α) (k : Byte) : Heap α := put h (al h) (.node k none none none)

/-- From the search on, src/common/utils.c:577-593: `parent` and the memory. -/
def found (al : Heap α → Nat) (h : Heap α) (k : Byte) (r : Ptr × Ptr) : Run (Ptr × Heap α) :=
  if r.1 = none ∨ r.2 ≠ none then .ok (r.2, h)
  else do
    let h' ← setNode (newNode al h k) r.1 fun x => { x with next := some (al h) }
    .ok (some (al h), h')

/-- One round of the loop down to `clean`, src/common/utils.c:558-593: `parent` and the
memory. -/
def place (fuel : Nat) (al : Heap α → Nat) (t : Nat) (k : Byte) (parent : Ptr) (h : Heap α) : Run (Ptr × Heap α) := do
  let root ← getTrie h t
  match root.1, parent with
  | none, _ => do
    let h' ← setRoot (newNode al h k) t (some (al h))
    .ok (some (al h), h')
  | some r, none => do
    let s ← search fuel h k none (some r)
    found al h k s
  | some _, some p => do
    let x ← getNode h (some p)
    match x.child with
    | none => do
      let h' ← setNode (newNode al h k) (some p) fun x => { x with child := some (al h) }
      .ok (some (al h), h')
    | some c => do
      let s ← search fuel h k none (some c)
      found al h k s

/-- `bc_trie_insert`, src/common/utils.c:547-604, from a value of `parent` on; the string
is the rest of the key. `data` is not NULL (line 550). -/
def insertLoop (fuel : Nat) (al : Heap α → Nat) (t : Nat) (d : α) : Str → Ptr → Heap α → Run (Heap α × List α)
  | [], parent, h => do
    let r ← place fuel al t 0 parent h
    let x ← getNode r.2 r.1
    let ff ← getTrie r.2 t
    let h' ← setNode r.2 r.1 fun x => { x with data := some d }
    .ok (h', if ff.2 then x.data.toList else [])
  | c :: rest, parent, h => do
    let r ← place fuel al t c parent h
    insertLoop fuel al t d rest r.1 r.2

def insert (fuel : Nat) (al : Heap α → Nat) (h : Heap α) (t : Nat) (key : Str) (d : α) : Run (Heap α × List α) :=
  insertLoop fuel al t d key none h

/-- The loop of `bc_trie_lookup`, src/common/utils.c:615-632. -/
def lookupLoop (fuel : Nat) (h : Heap α) : Str → Ptr → Run (Option α)
  | [], parent => do
    let r ← search fuel h 0 none parent
    match r.2 with
    | none => .ok none
    | some a => do
      let x ← getNode h (some a)
      .ok x.data
  | c :: rest, parent => do
    let r ← search fuel h c none parent
    match r.2 with
    | none => .ok none
    | some a => do
      let x ← getNode h (some a)
      if x.key = 0 then .ok x.data else lookupLoop fuel h rest x.child

/-- `bc_trie_lookup`, src/common/utils.c:607-633. -/
def lookup (fuel : Nat) (h : Heap α) (t : Nat) (key : Str) : Run (Option α) := do
  let root ← getTrie h t
  lookupLoop fuel h key root.1

/-- `bc_trie_size_node`, src/common/utils.c:636-647. -/
def sizeNode : Nat → Heap α → Ptr → Run Nat
  | 0, _, _ => .out
  | _ + 1, _, none => .ok 0
  | n + 1, h, some a => do
    let x ← getNode h (some a)
    let r ← sizeNode n h x.next
    let s ← sizeNode n h x.child
    .ok ((if x.key = 0 then 1 else 0) + r + s)

/-- `bc_trie_size`, src/common/utils.c:650-659. -/
def size (fuel : Nat) (h : Heap α) (t : Nat) : Run Nat := do
  let root ← getTrie h t
  sizeNode fuel h root.1

/-- `bc_trie_foreach_node`, src/common/utils.c:662-681: the calls of the callback. The
strings made on the way are released at once; they are values here. -/
def foreachNode : Nat → Heap α → Ptr → Str → Run (List (Str × Option α))
  | 0, _, _, _ => .out
  | _ + 1, _, none, _ => .ok []
  | n + 1, h, some a, pre => do
    let x ← getNode h (some a)
    let r ← foreachNode n h x.child (pre ++ [x.key])
    let s ← foreachNode n h x.next pre
    .ok ((if x.key = 0 then [(pre, x.data)] else []) ++ r ++ s)

/-- `bc_trie_foreach`, src/common/utils.c:684-694. -/
def foreach (fuel : Nat) (h : Heap α) (t : Nat) : Run (List (Str × Option α)) := do
  let root ← getTrie h t
  foreachNode fuel h root.1 []

/-- `bc_trie_free_node`, src/common/utils.c:524-534: the memory, and the data handed to
`free_func`. -/
def freeNode (t : Nat) : Nat → Heap α → Ptr → Run (Heap α × List α)
  | 0, _, _ => .out
  | _ + 1, h, none => .ok (h, [])
  | n + 1, h, some a => do
    let x ← getNode h (some a)
    let ff ← getTrie h t
    let r ← freeNode t n h x.next
    let y ← getNode r.1 (some a)
    let s ← freeNode t n r.1 y.child
    let h' ← release s.1 a
    .ok (h', (if ff.2 then x.data.toList else []) ++ r.2 ++ s.2)

/-- `bc_trie_free`, src/common/utils.c:537-544. -/
def freeTrie (fuel : Nat) (h : Heap α) (t : Nat) : Run (Heap α × List α) := do
  let root ← getTrie h t
  let r ← freeNode t fuel h root.1
  let h' ← release r.1 t
  .ok (h', r.2)

/-! ## Programs that use them -/

/-- What a program does with its variables; `x` and `y` are the names of variables that
hold lists and tables. -/
inductive Op (α : Type) where
  /-- `x = NULL`, an empty list -/
  | newList (x : Nat)
  | append (x : Nat) (data : Option α)
  | prepend (x : Nat) (data : Option α)
  /-- `x = bc_slist_append_list(x, y)`; `y` is not used any more -/
  | join (x y : Nat)
  | length (x : Nat)
  | items (x : Nat)
  | freeList (x : Nat) (ff : Bool)
  | newTable (x : Nat) (ff : Bool)
  | insert (x : Nat) (key : Str) (data : α)
  | lookup (x : Nat) (key : Str)
  | size (x : Nat)
  | foreach (x : Nat)
  | freeTable (x : Nat)

/-- What a call returns or shows. -/
inductive Answer (α : Type) where
  | nothing
  | value (v : Option α)
  | count (n : Nat)
  | items (l : List (Option α))
  | visits (l : List (Str × Option α))
  deriving DecidableEq

/-- The memory and the variables. -/
structure State (α : Type) where
  heap : Heap α
  vars : Nat → Ptr

def State.set (st : State α) (h : Heap α) (x : Nat) (p : Ptr) : State α :=
  ⟨h, fun y => if y = x then p else st.vars y⟩

/-- The pointer of a variable that is used as a table. The functions return at once for a
NULL (lines 527, 540, 550, 610, 653, 688), but no variable that holds a table is NULL. -/
def State.table (st : State α) (x : Nat) : Run Nat :=
  match st.vars x with
  | some t => .ok t
  | none => .ub

/-- One call: the state, the answer, and the data handed to `free_func`. -/
def exec (fuel : Nat) (al : Heap α → Nat) (st : State α) : Op α → Run (State α × Answer α × List α)
  | .newList x => .ok (st.set st.heap x none, .nothing, [])
  | .append x d => do
    let r ← append fuel al st.heap (st.vars x) d
    .ok (st.set r.1 x r.2, .nothing, [])
  | .prepend x d =>
    let r := prepend al st.heap (st.vars x) d
    .ok (st.set r.1 x r.2, .nothing, [])
  | .join x y => do
    let r ← appendList fuel st.heap (st.vars x) (st.vars y)
    .ok (st.set r.1 x r.2, .nothing, [])
  | .length x => do
    let r ← length fuel st.heap (st.vars x)
    .ok (st, .count r, [])
  | .items x => do
    let r ← items fuel st.heap (st.vars x)
    .ok (st, .items r, [])
  | .freeList x ff => do
    let r ← freeList ff fuel st.heap (st.vars x)
    .ok (⟨r.1, st.vars⟩, .nothing, r.2)
  | .newTable x ff =>
    let r := newTrie al ff st.heap
    .ok (st.set r.1 x (some r.2), .nothing, [])
  | .insert x key d => do
    let t ← st.table x
    let r ← insert fuel al st.heap t key d
    .ok (⟨r.1, st.vars⟩, .nothing, r.2)
  | .lookup x key => do
    let t ← st.table x
    let r ← lookup fuel st.heap t key
    .ok (st, .value r, [])
  | .size x => do
    let t ← st.table x
    let r ← size fuel st.heap t
    .ok (st, .count r, [])
  | .foreach x => do
    let t ← st.table x
    let r ← foreach fuel st.heap t
    .ok (st, .visits r, [])
  | .freeTable x => do
    let t ← st.table x
    let r ← freeTrie fuel st.heap t
    .ok (⟨r.1, st.vars⟩, .nothing, r.2)

/-- A program: every call, with the `malloc` that it finds. -/
def perform (fuel : Nat) : List ((Heap α → Nat) × Op α) → State α → Run (State α × List (Answer α × List α))
  | [], st => .ok (st, [])
  | (al, op) :: rest, st => do
    let r ← exec fuel al st op
    let s ← perform fuel rest r.1
    .ok (s.1, r.2 :: s.2)

end Blogc.Mem
