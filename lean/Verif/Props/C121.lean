import Verif.Lemmas.ConfigMemory
import Verif.Lemmas.HeapOps

/-!
# C121: memory of reading a configuration
-/

namespace Blogc.C121

open Blogc Blogc.Config Blogc.ConfigMem Blogc.Spec.ConfigAccount

/-- The iteration with memory is that of Model/Config.lean (C15, C16 and others). -/
theorem same (src : Str) (lists : List Str) (st : St) :
    (stepM src lists st).2 = step src lists st :=
  stepM_same src lists st

/-- A file with a section that comes twice, a list and an escaped character. -/
def sample : Str := b!"[a]\nk = v\n[tags]\n\"x\" \ny\\z\n[a]\nq =\"w\"\nr ="

example : (stepM sample [b!"tags"] St.init).2 = adv { St.init with state := .sectionStart } := rfl

/-- A configuration that was read: the configuration and its sections are in use and nothing else,
and `bc_config_free` releases all of it. Nothing is used or released that is not in use. -/
theorem accepted (src : Str) (lists : List Str) (c : Config)
    (h : parse src lists = some (.ok (.ok c))) :
    inUse (parseEvents src lists) nothing = some (configuration c.root.free) ∧
      inUse (parseEvents src lists ++ freeConfig c.root) nothing = some nothing := by
  have ha := parse_account src lists _ h
  refine ⟨ha, ?_⟩
  have hn := (sections_nodup src lists c h).1
  rw [inUse_append, ha, Option.bind_some]
  unfold freeConfig
  rw [inUse_append]
  simp only [left]
  rw [inUse_sections _ _ hn (by simp [configuration])]
  simp only [Option.bind_some, inUse, account]
  rw [if_pos (by simp [without, configuration]), Option.bind_some]
  congr 1
  funext x
  cases x <;> simp [mark, without, configuration, nothing]

/-- The numbers of the sections of a file that is read. -/
def sectionsOf (src : Str) (lists : List Str) : Option (List Nat) :=
  match parse src lists with
  | some (.ok (.ok c)) => some c.root.free
  | _ => none

example : sectionsOf sample [b!"tags"] = some [1, 2] := by decide +kernel

example : (parseEvents sample [b!"tags"]).filter
      (fun e => match e with | .use _ => false | _ => true) =
    [.acquire .config, .acquire .sectionName, .acquire (.section 0), .release .sectionName,
      .acquire .key, .acquire .value, .release .key, .release .value,
      .acquire .sectionName, .acquire (.section 1), .release .sectionName,
      .acquire .value, .release .value, .acquire .value, .release .value,
      .acquire .sectionName, .acquire (.section 2), .release (.section 0), .release .sectionName,
      .acquire .key, .acquire .value, .release .value, .release .key,
      .acquire .key, .release .key] := by decide +kernel

/-- The sections that are in use then are those that are found by some name. -/
theorem by_name (src : Str) (lists : List Str) (c : Config)
    (h : parse src lists = some (.ok (.ok c))) (i : Nat) :
    configuration c.root.free (.section i) = true ↔ ∃ name, NulFree name ∧ c.root.lookup name = some i := by
  have hw := (sections_nodup src lists c h).2
  simp only [configuration, decide_eq_true_eq]
  rw [(Mem.free_perm c.root hw []).mem_iff]
  simp only [List.mem_flatMap, Option.mem_toList]
  constructor
  · rintro ⟨⟨k, v⟩, h1, h2⟩
    have := (Trie.mem_foreach c.root hw k v).1 h1
    exact ⟨k, this.1, this.2.2.trans h2⟩
  · rintro ⟨k, h1, h2⟩
    exact ⟨(k, some i), (Trie.mem_foreach c.root hw k (some i)).2 ⟨h1, rfl, h2⟩, rfl⟩

example : (match parse sample [b!"tags"] with
    | some (.ok (.ok c)) => (c.root.lookup b!"a", c.root.lookup b!"tags")
    | _ => (none, none)) = (some 2, some 1) := by decide +kernel

/-- A file that is rejected: only the error is in use. -/
theorem rejected (src : Str) (lists : List Str) (e : Err × Nat)
    (h : parse src lists = some (.ok (.error e))) :
    inUse (parseEvents src lists) nothing = some error :=
  parse_account src lists _ h

/-- The error of a file that is rejected. -/
def errorOf (src : Str) (lists : List Str) : Option (Err × Nat) :=
  match parse src lists with
  | some (.ok (.error e)) => some e
  | _ => none

example : errorOf b!"[a]\n\"k\" = v\n[a]\nk" [] = some (.keyWithoutValue b!"k", 16) := by
  decide +kernel

example : (parseEvents b!"[a]\n[a]\nk" []).drop 11 =
    [.release .sectionName, .use (.section 1), .acquire .key, .use .key, .acquire .err,
      .release .key, .release (.section 1), .release .config] := by decide +kernel

/-- Whatever the file is, it is read or rejected, and at every moment nothing is used or released
that is not in use. -/
theorem any_moment (src : Str) (lists : List Str) (before after : List Event)
    (h : parseEvents src lists = before ++ after) :
    (∃ r, parse src lists = some (.ok r)) ∧ ∃ now, inUse before nothing = some now := by
  obtain ⟨r, hr⟩ := C15.parse_total src lists
  have := parse_account src lists r hr
  rw [h] at this
  exact ⟨⟨r, hr⟩, inUse_prefix this⟩

example : parseEvents b!"[a]" [] =
    [.acquire .config, .acquire .sectionName, .acquire (.section 0), .use .sectionName, .use .config] ++
      [.release .sectionName] := by decide +kernel

end Blogc.C121
