import Verif.Props.C64
import Verif.Spec.CommandLine

/-!
# C70: the command line means what it says
-/

namespace Blogc.C70

open Blogc.Spec Blogc.Spec.MakeSettings Blogc.Spec.CommandLine Blogc.Main

/-- What an option does. -/
def apply (o : Opts) : Opt → Opts
  | .debug => { o with debug := true }
  | .stdin => { o with stdin := true }
  | .listing => { o with listing := true }
  | .entry v _ => { o with entries := o.entries ++ [v] }
  | .template v _ => { o with template := some v }
  | .output v _ => { o with output := some v }
  | .print v _ => { o with print := some v }
  | .define k v _ => { o with config := (o.config.insert k v).1 }
  | .source f => { o with sources := o.sources ++ [f] }

/-- The options with a value other than `-D`. -/
theorem valued_eq (make : Bool) (c : Byte) (v : Str) (sep : Bool) (hv : sep = false → v ≠ [])
    (hc : c = c!"e" ∨ c = c!"t" ∨ c = c!"o" ∨ c = c!"p") (rest : List Str) (o o' : Opts)
    (ho : withValue c v o = .ok (.ok o')) :
    argLoop make none (valued [c!"-", c] v sep ++ rest) o = argLoop make none rest o' := by
  have hopt : ∀ v, option make c v o =
      if v = [] then .ok (.wait c)
      else (withValue c v o).bind fun
        | .error s => .ok (.stop s)
        | .ok o => .ok (.go o) := by
    intro v
    simp only [option]
    rw [if_neg (by rcases hc with rfl | rfl | rfl | rfl <;> decide),
      if_neg (by rcases hc with rfl | rfl | rfl | rfl <;> decide),
      if_neg (by rcases hc with rfl | rfl | rfl | rfl <;> decide),
      if_neg (by rcases hc with rfl | rfl | rfl | rfl <;> decide),
      if_neg (by rcases hc with rfl | rfl | rfl | rfl <;> decide),
      if_pos (by rcases hc with rfl | rfl | rfl | rfl <;> decide)]
    rfl
  cases sep with
  | true =>
    simp only [valued, if_true, List.cons_append, List.nil_append, argLoop]
    rw [hopt [], if_pos rfl]
    simp only [Res.bind, argLoop, ho]
  | false =>
    simp only [valued, Bool.false_eq_true, if_false, List.cons_append, List.nil_append, argLoop, if_true]
    rw [hopt v, if_neg (hv rfl), ho]
    rfl

theorem one (make : Bool) (x : Opt) (hx : x.Ok) (rest : List Str) (o : Opts) :
    argLoop make none (x.args ++ rest) o = argLoop make none rest (apply o x) := by
  cases x with
  | debug => rfl
  | stdin => rfl
  | listing => rfl
  | entry v sep => exact valued_eq make c!"e" v sep hx (by decide) rest o _ rfl
  | template v sep => exact valued_eq make c!"t" v sep hx (by decide) rest o _ rfl
  | output v sep => exact valued_eq make c!"o" v sep hx (by decide) rest o _ rfl
  | print v sep => exact valued_eq make c!"p" v sep hx (by decide) rest o _ rfl
  | define k v sep =>
    refine C64.sets make k v hx.1 hx.2 _ rest ?_ o
    cases sep with
    | true => exact .separate rest
    | false => exact .attached rest (by simp)
  | source f =>
    cases f with
    | nil => rfl
    | cons a f =>
      have ha : a ≠ c!"-" := fun e => hx (by simp [e])
      simp only [Opt.args, List.cons_append, List.nil_append, argLoop, if_neg ha]
      rfl

theorem all (make : Bool) (xs : List Opt) (hx : ∀ x ∈ xs, x.Ok) (o : Opts) :
    argLoop make none (xs.flatMap Opt.args) o = .ok (.ok (xs.foldl apply o)) := by
  induction xs generalizing o with
  | nil => rfl
  | cons x xs ih =>
    rw [List.flatMap_cons, one make x (hx x (by simp)), ih fun y hy => hx y (by simp [hy])]
    rfl

/-- What the options of a command line amount to. -/
structure Meaning (version : Str) (xs : List Opt) (o : Opts) : Prop where
  debug : o.debug = true ↔ .debug ∈ xs
  stdin : o.stdin = true ↔ .stdin ∈ xs
  listing : o.listing = true ↔ .listing ∈ xs
  template : o.template = (xs.filterMap templateOf).getLast?
  output : o.output = (xs.filterMap outputOf).getLast?
  print : o.print = (xs.filterMap printOf).getLast?
  entries : o.entries = xs.filterMap entryOf
  sources : o.sources = xs.filterMap sourceOf
  config : ∀ k, NulFree k → o.config.lookup k =
    lastValue ((b!"BLOGC_VERSION", version) :: xs.filterMap definitionOf) k

theorem valid_nulFree {k : Str} (h : ValidKey k) : NulFree k := by
  obtain ⟨c, rest, rfl, h1, h2⟩ := h
  intro x hx h0
  subst h0
  rcases List.mem_cons.1 hx with h | h
  · subst h; exact absurd h1.1 (by decide)
  · rcases h2 _ h with h | h | h
    · exact absurd h.1 (by decide)
    · exact absurd h.1 (by decide)
    · exact absurd h (by decide)

theorem config_eq (version : Str) (xs : List Opt) :
    (xs.foldl apply (initial version)).config =
      (Trie.inserts ((b!"BLOGC_VERSION", version) :: xs.filterMap definitionOf)).1 := by
  induction xs using List.reverseRecOn with
  | nil => rfl
  | append_singleton xs x ih =>
    have snoc : ∀ (h : List (Str × Str)) (k v : Str),
        (Trie.inserts (h ++ [(k, v)])).1 = ((Trie.inserts h).1.insert k v).1 := by
      intro h k v
      simp [Trie.inserts, List.foldl_append]
    rw [List.foldl_append, List.filterMap_append, ← List.cons_append]
    cases x with
    | define k v sep =>
      have e : List.filterMap definitionOf [Opt.define k v sep] = [(k, v)] := rfl
      rw [e, snoc, ← ih]
      rfl
    | _ =>
      refine Eq.trans ?_ (ih.trans ?_)
      · rfl
      · simp [definitionOf, List.filterMap_cons]

/-- Every command line made of valid options, in any order and with values
attached or not, is read as it is meant: flags are set if given, the last
template, output and variable to print count, entries and sources are kept in
order, and each variable has its last definition. -/
theorem reads (make : Bool) (version : Str) (xs : List Opt) (hx : ∀ x ∈ xs, x.Ok) :
    ∃ o, argLoop make none (xs.flatMap Opt.args) (initial version) = .ok (.ok o) ∧
      Meaning version xs o := by
  refine ⟨_, all make xs hx _, ?_⟩
  have hck : CKeys ((b!"BLOGC_VERSION", version) :: xs.filterMap definitionOf) := by
    intro kv hkv
    rcases List.mem_cons.1 hkv with h | h
    · subst h
      show NulFree b!"BLOGC_VERSION"
      decide
    · obtain ⟨x, hm, e⟩ := List.mem_filterMap.1 h
      cases x with
      | define k v sep =>
        simp only [definitionOf, Option.some.injEq] at e
        subst e
        exact valid_nulFree (hx _ hm).1
      | _ => cases e
  have hconf : ∀ k, NulFree k → (xs.foldl apply (initial version)).config.lookup k =
      lastValue ((b!"BLOGC_VERSION", version) :: xs.filterMap definitionOf) k := by
    intro k hk
    rw [config_eq, C07.lookup_inserts _ hck k hk]
  clear hck
  refine ⟨?_, ?_, ?_, ?_, ?_, ?_, ?_, ?_, hconf⟩
  all_goals
    clear hconf hx
    induction xs using List.reverseRecOn with
    | nil => simp [initial]
    | append_singleton xs x ih =>
      rw [List.foldl_append]
      cases x <;>
        simp [apply, ih, templateOf, outputOf, printOf, entryOf, sourceOf, List.filterMap_append,
          List.filterMap_cons]

/-- The two forms of the value of an option mean the same. -/
theorem forms_agree (make : Bool) (version name v : Str) (c : Byte) (rest : List Str) (hv : v ≠ [])
    (hn : name = [c!"-", c]) (hc : c = c!"e" ∨ c = c!"t" ∨ c = c!"o" ∨ c = c!"p") :
    argLoop make none (valued name v true ++ rest) (initial version) =
      argLoop make none (valued name v false ++ rest) (initial version) := by
  subst hn
  have ⟨o', ho⟩ : ∃ o', withValue c v (initial version) = .ok (.ok o') := by
    rcases hc with rfl | rfl | rfl | rfl <;> exact ⟨_, rfl⟩
  rw [valued_eq make c v true (by simp) hc rest _ o' ho, valued_eq make c v false (fun _ => hv) hc rest _ o' ho]

/-! Non-vacuity. -/

def sample : List Opt :=
  [.listing, .template b!"a" false, .define b!"A" b!"1" true, .source b!"f", .template b!"-b" true,
    .define b!"A" b!"2=3" false, .entry b!"" true]

example : sample.flatMap Opt.args =
    [b!"-l", b!"-ta", b!"-D", b!"A=1", b!"f", b!"-t", b!"-b", b!"-DA=2=3", b!"-e", b!""] := by decide

example : ∀ x ∈ sample, x.Ok := by
  intro x hx
  simp only [sample, List.mem_cons, List.not_mem_nil, or_false] at hx
  have hA : ValidKey b!"A" := ((C64.checkKey_iff _).1 (by decide)).resolve_left (by decide)
  rcases hx with rfl | rfl | rfl | rfl | rfl | rfl | rfl
  · trivial
  · exact fun _ => by decide
  · exact ⟨hA, C64.utf8_of (by decide +kernel)⟩
  · show _ ≠ _
    decide
  · exact fun h => by cases h
  · exact ⟨hA, C64.utf8_of (by decide +kernel)⟩
  · exact fun h => by cases h

example : (sample.filterMap templateOf).getLast? = some b!"-b" := by decide

end Blogc.C70
