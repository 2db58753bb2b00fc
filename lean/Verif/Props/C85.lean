import Verif.Props.C70
import Verif.Props.C71
import Verif.Props.C34
import Verif.Model.Template

/-!
# C85: `-p` prints what a template would show, from the sources that were named
-/

namespace Blogc.C85

open Blogc Blogc.Main
open Blogc.Spec.CommandLine
open Blogc.Template (Node)

/-! ## Specification -/

/-- A template that shows one variable: in listings by itself, otherwise in an
`entry` block, so that the variables of the source are seen. -/
def shower (listing : Bool) (name : Str) : List Node :=
  if listing then [⟨.variable, .none, some name, none⟩]
  else [⟨.block, .none, some b!"entry", none⟩, ⟨.variable, .none, some name, none⟩,
    ⟨.endblock, .none, none, none⟩]

/-- Printing a text to the standard output, and success. -/
def prints (text : Str) : Prog Call Outcome := .call (.stdout text) fun _ => .ret (.exit 0)

/-- The source files of a run: those on the command line, then, with `-i`, those
listed on the standard input. -/
def sourcesOf (stdin : Str) (xs : List Opt) : List Str :=
  xs.filterMap sourceOf ++
    if .stdin ∈ xs then (Spec.FileList.lines stdin).filterMap Spec.FileList.entry else []

/-! ## Options -/

/-- Reading the options and one more with a separate value. -/
theorem main_snoc (env : Env) (xs : List Opt) (hx : ∀ x ∈ xs, x.Ok) (x : Opt) (hxok : x.Ok) :
    Main.main env (xs.flatMap Opt.args ++ x.args) =
      body env (C70.apply (xs.foldl C70.apply (initial env.version)) x) := by
  have h := C70.all env.make (xs ++ [x]) (by
    intro y hy
    rcases List.mem_append.1 hy with h | h
    · exact hx y h
    · rw [List.mem_singleton.1 h]; exact hxok) (initial env.version)
  rw [List.flatMap_append, List.foldl_append] at h
  have e : List.flatMap Opt.args [x] = x.args := by simp
  rw [e] at h
  unfold Main.main
  rw [h]
  rfl

/-- The run up to the point where the sources and entries have been read: it stops
with `stop`, or goes on with them. -/
inductive Loaded where
  | stop (r : Outcome)
  | go (s : List (Trie Str)) (entries : List (Option (Trie Str))) (config : Trie Str)

def load (env : Env) (o : Opts) : Loaded :=
  if !o.listing && (allSources env o).length != 1 then .stop (.exit 1)
  else
    match Loader.fromFiles env.loader o.config (allSources env o) with
    | .ub => .stop .undefined
    | .ok none => .stop (.exit 1)
    | .ok (some (s, config)) =>
      match (if o.listing then loadEntries env (config.lookup b!"TOCTREE_MAXDEPTH") o.entries
          else some []) with
      | none => .stop (.exit 1)
      | some entries => .go s entries config

theorem load_stop (env : Env) (o : Opts) (r : Outcome) (h : load env o = .stop r) : r ≠ .exit 0 := by
  unfold load at h
  split at h
  · cases h; decide
  · split at h
    · cases h; decide
    · cases h; decide
    · split at h <;> cases h
      decide

theorem body_eq (env : Env) (o : Opts) : body env o = match load env o with
    | .stop r => .ret r
    | .go s entries config =>
      match o.print with
      | some name => printVariable env o s config name
      | none => renderAll env o s entries config := by
  unfold body load
  by_cases hc : (!o.listing && (allSources env o).length != 1) = true
  · rw [if_pos hc, if_pos hc]
  · rw [if_neg hc, if_neg hc]
    cases Loader.fromFiles env.loader o.config (allSources env o) with
    | ub => rfl
    | ok q =>
      cases q with
      | none => rfl
      | some q =>
        simp only
        cases (if o.listing = true then loadEntries env (q.2.lookup b!"TOCTREE_MAXDEPTH") o.entries
          else some []) <;> rfl

/-! ## Rendering the template -/

/-- What the template shows. -/
theorem render_shower (sys : Render.Sys) (fuel : Nat) (listing : Bool) (name : Str)
    (s : List (Trie Str)) (entries : List (Option (Trie Str))) (config : Trie Str) :
    Render.render (Render.evaluator sys) (fuel + 4) (shower listing name) ⟨s, listing⟩ entries config =
      match Render.formatVariable sys config (if listing then none else s.head?) {} name with
      | .ub => .ub
      | .ok (_, v) => .ok (v.getD []) := by
  cases listing with
  | true =>
    simp only [shower, if_true, Render.render]
    rw [runL, Render.step]
    simp only [Render.variableNode, Render.valueOf, Render.evaluator, Render.St.local, Render.St.item,
      Bool.false_eq_true, if_false, List.head?_nil]
    cases Render.formatVariable sys config none {} name with
    | ub => rfl
    | ok p => rfl
  | false =>
    simp only [shower, Bool.false_eq_true, if_false, Render.render]
    rw [runL, Render.step]
    simp only [Render.block, Render.blockOf, if_true, Render.next, Bool.false_eq_true, if_false]
    rw [runL, Render.step]
    simp only [Render.variableNode, Render.valueOf, Render.evaluator, Render.St.local, Render.St.item,
      if_true, List.head?_nil]
    cases Render.formatVariable sys config s.head? {} name with
    | ub => rfl
    | ok p =>
      cases s with
      | nil => rfl
      | cons a s => cases s <;> rfl

/-! ## The property -/

/-- `-p NAME` prints the value that a template shows for the variable, with the
same options, and a line end. A variable that is not defined is an error, with
status 78. -/
theorem print_shows (env : Env) (xs : List Opt) (hx : ∀ x ∈ xs, x.Ok)
    (hp : xs.filterMap printOf = []) (ho : xs.filterMap outputOf = []) (name T : Str)
    (hT : env.template T = some (shower (decide (.listing ∈ xs)) name)) (hf : 4 ≤ env.fuel) :
    let p := Main.main env (xs.flatMap Opt.args ++ [b!"-p", name])
    let t := Main.main env (xs.flatMap Opt.args ++ [b!"-t", T])
    (∃ v, p = prints (v ++ b!"\n") ∧ t = prints v) ∨
    (p = .ret (.exit 78) ∧ t = prints []) ∨
    (∃ r, r ≠ .exit 0 ∧ p = .ret r ∧ t = .ret r) := by
  intro p t
  obtain ⟨o, ho', hm⟩ := C70.reads env.make env.version xs hx
  rw [C70.all env.make xs hx] at ho'
  simp only [Res.ok.injEq, Except.ok.injEq] at ho'
  have hpr : o.print = none := by rw [hm.print, hp]; rfl
  have hou : o.output = none := by rw [hm.output, ho]; rfl
  have hl : decide (Opt.listing ∈ xs) = o.listing := by
    cases h : o.listing with
    | true => exact decide_eq_true (hm.listing.1 h)
    | false =>
      refine decide_eq_false fun h' => ?_
      rw [hm.listing.2 h'] at h
      cases h
  rw [hl] at hT
  have ep : p = body env { o with print := some name } := by
    have := main_snoc env xs hx (.print name true) (fun h => by cases h)
    rw [ho'] at this
    exact this
  have et : t = body env { o with template := some T } := by
    have := main_snoc env xs hx (.template T true) (fun h => by cases h)
    rw [ho'] at this
    exact this
  rw [ep, et, body_eq, body_eq]
  have e1 : load env { o with print := some name } = load env o := rfl
  have e2 : load env { o with template := some T } = load env o := rfl
  rw [e1, e2]
  cases hld : load env o with
  | stop r => exact .inr (.inr ⟨r, load_stop env o r hld, rfl, rfl⟩)
  | go s entries config =>
    obtain ⟨n, hn⟩ : ∃ n, env.fuel = n + 4 := ⟨env.fuel - 4, by omega⟩
    have hr := render_shower env.sys n o.listing name s entries config
    simp only [hpr]
    unfold printVariable renderAll
    simp only [hT, hn, hr]
    cases Render.formatVariable env.sys config (if o.listing = true then none else s.head?) {} name with
    | ub => exact .inr (.inr ⟨_, by decide, rfl, rfl⟩)
    | ok q =>
      obtain ⟨g, v⟩ := q
      have hw : ∀ text, writeOut { o with template := some T } text = prints text := by
        intro text
        simp only [writeOut, hou]
        rfl
      cases v with
      | none => exact .inr (.inl ⟨rfl, hw []⟩)
      | some v => exact .inl ⟨v, rfl, hw v⟩

/-- The sources of a run are those named on the command line and, with `-i`, on the
standard input, in this order. -/
theorem sources_partial (env : Env) (xs : List Opt) (o : Opts) (hm : C70.Meaning env.version xs o)
    (hn : NulFree env.stdin) (hodd : ∀ l ∈ Spec.FileList.lines env.stdin, ¬ C34.OddStart l) :
    allSources env o = sourcesOf env.stdin xs := by
  have read : ∀ acc s : Str, stdinRead acc s = acc ++ s := by
    intro acc s
    induction s generalizing acc with
    | nil => simp [stdinRead]
    | cons c s ih => rw [stdinRead, ih]; simp
  unfold allSources sourcesOf
  rw [hm.sources, read, List.nil_append, C34.exact_partial _ hn hodd]
  congr 1
  by_cases h : Opt.stdin ∈ xs
  · rw [if_pos h, if_pos (hm.stdin.2 h)]
  · rw [if_neg h, if_neg (fun h' => h (hm.stdin.1 h'))]

/-- The entries of `-e`, in order: an empty name stands for no entry, and any
other one has to be a source that can be read. -/
theorem entries_exact (env : Env) (depth : Option Str) (names : List Str) (es : List (Option (Trie Str))) :
    loadEntries env depth names = some es ↔
      List.Forall₂ (fun n e => (n = [] ∧ e = none) ∨
        (n ≠ [] ∧ ∃ s, env.loader.parse depth n = some s ∧ e = some s)) names es := by
  induction names generalizing es with
  | nil =>
    simp only [loadEntries, Option.some.injEq]
    constructor
    · rintro rfl; exact .nil
    · intro h; cases h; rfl
  | cons n ns ih =>
    rw [loadEntries]
    by_cases hn : n = []
    · rw [if_pos hn]
      constructor
      · intro h
        obtain ⟨l, hl, rfl⟩ := Option.map_eq_some_iff.1 h
        exact .cons (.inl ⟨hn, rfl⟩) ((ih l).1 hl)
      · intro h
        cases h with
        | cons h1 h2 =>
          rcases h1 with ⟨-, rfl⟩ | ⟨h, -⟩
          · rw [(ih _).2 h2]; rfl
          · exact absurd hn h
    · rw [if_neg hn]
      constructor
      · intro h
        split at h
        · cases h
        · rename_i s hs
          obtain ⟨l, hl, rfl⟩ := Option.map_eq_some_iff.1 h
          exact .cons (.inr ⟨hn, s, hs, rfl⟩) ((ih l).1 hl)
      · intro h
        cases h with
        | cons h1 h2 =>
          rcases h1 with ⟨h, -⟩ | ⟨-, s, hs, rfl⟩
          · exact absurd h hn
          · simp only [hs, (ih _).2 h2]
            rfl

/-! ## Missing values -/

/-- The property that an option without its value is an error fails for every
command line and every option: the option is ignored. -/
theorem missing_value_violated (env : Env) (xs : List Opt) (hx : ∀ x ∈ xs, x.Ok) (c : Byte)
    (hc : c = c!"e" ∨ c = c!"t" ∨ c = c!"o" ∨ c = c!"p" ∨ c = c!"D") :
    Main.main env (xs.flatMap Opt.args ++ [[c!"-", c]]) = Main.main env (xs.flatMap Opt.args) := by
  have key : ∀ (xs : List Opt) (_ : ∀ x ∈ xs, x.Ok) (rest : List Str) (o : Opts),
      argLoop env.make none (xs.flatMap Opt.args ++ rest) o = argLoop env.make none rest (xs.foldl C70.apply o) := by
    intro xs hx rest
    induction xs with
    | nil => intro o; rfl
    | cons x xs ih =>
      intro o
      rw [List.flatMap_cons, List.append_assoc, C70.one env.make x (hx x (by simp)),
        ih (fun y hy => hx y (by simp [hy]))]
      rfl
  unfold Main.main
  rw [key xs hx, C70.all env.make xs hx]
  rcases hc with rfl | rfl | rfl | rfl | rfl <;> rfl

/-! Non-vacuity. -/

/-- One source with the variable `TITLE`, and a template that shows it. -/
def sampleEnv : Env :=
  { C71.sampleEnv with
    loader := { parse := fun _ f => if f = b!"s" then some (Trie.nil.insert b!"TITLE" b!"Hi").1 else none,
                stamp := fun _ => none }
    template := fun f => if f = b!"t" then some (shower false b!"TITLE") else none }

example : Main.main sampleEnv [b!"s", b!"-p", b!"TITLE"] = prints b!"Hi\n" := rfl
example : Main.main sampleEnv [b!"s", b!"-t", b!"t"] = prints b!"Hi" := rfl
example : Main.main sampleEnv [b!"s", b!"-p", b!"TITEL"] = .ret (.exit 78) := rfl
example : Main.main sampleEnv [b!"-l", b!"s", b!"-p", b!"TITLE"] = .ret (.exit 78) := rfl
example : sampleEnv.template b!"t" = some (shower (decide (Opt.listing ∈ [Opt.source b!"s"])) b!"TITLE") := rfl

example : sourcesOf b!"b\n# no\n c \n" [.source b!"a", .stdin] = [b!"a", b!"b", b!"c"] := by decide

end Blogc.C85
