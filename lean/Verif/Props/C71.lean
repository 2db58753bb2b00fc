import Verif.Model.Main
import Verif.Props.C59

/-!
# C71: the output file is touched only after everything else succeeded
-/

namespace Blogc.C71

open Blogc.Main

/-- The text a run produces: the sources, the entries of `-e` and the template are
read and rendered. -/
def Produces (env : Env) (o : Opts) (text : Str) : Prop :=
  ∃ s config entries t l,
    (o.listing = true ∨ (allSources env o).length = 1) ∧
    Loader.fromFiles env.loader o.config (allSources env o) = .ok (some (s, config)) ∧
    (if o.listing then loadEntries env (config.lookup b!"TOCTREE_MAXDEPTH") o.entries
      else some []) = some entries ∧
    o.print = none ∧ o.template = some t ∧ env.template t = some l ∧
    Render.render (Render.evaluator env.sys) env.fuel l ⟨s, o.listing⟩ entries config = .ok text

/-- What a run comes to: an end without effects that is not a success, a variable
printed, or a text written. -/
theorem body_cases (env : Env) (o : Opts) :
    (∃ r, body env o = .ret r ∧ r ≠ .exit 0) ∨
    (∃ v, o.print ≠ none ∧ body env o = .call (.stdout v) fun _ => .ret (.exit 0)) ∨
    ∃ text, Produces env o text ∧ body env o = writeOut o text := by
  unfold body
  split
  · exact .inl ⟨_, rfl, by decide⟩
  · rename_i hl
    have hl' : o.listing = true ∨ (allSources env o).length = 1 := by
      cases h : o.listing with
      | true => exact .inl rfl
      | false => simp [h] at hl; exact .inr hl
    split
    · exact .inl ⟨_, rfl, by decide⟩
    · exact .inl ⟨_, rfl, by decide⟩
    · rename_i s config hs
      split
      · exact .inl ⟨_, rfl, by decide⟩
      · rename_i entries he
        split
        · rename_i name hp
          unfold printVariable
          split
          · exact .inl ⟨_, rfl, by decide⟩
          · exact .inl ⟨_, rfl, by decide⟩
          · exact .inr (.inl ⟨_, by simp [hp], rfl⟩)
        · rename_i hp
          unfold renderAll
          split
          · exact .inl ⟨_, rfl, by decide⟩
          · rename_i t ht
            split
            · exact .inl ⟨_, rfl, by decide⟩
            · rename_i l hlt
              split
              · exact .inl ⟨_, rfl, by decide⟩
              · exact .inl ⟨_, rfl, by decide⟩
              · rename_i text hr
                exact .inr (.inr ⟨text, ⟨s, config, entries, t, l, hl', hs, he, hp, ht, hlt, hr⟩, rfl⟩)

/-- The path of the output file, if the output is a file. -/
def fileOf (o : Opts) : Option Str := o.output.filter (· ≠ b!"-")

/-- What the history of a run that writes `text` can be. -/
def Written (o : Opts) (text : Str) (t : List (Call × Bool)) (r : Outcome) : Prop :=
  match fileOf o with
  | none => (∃ b, t = [(.stdout text, b)]) ∧ r = .exit 0
  | some path =>
    ∃ dirs,
      (-- a directory cannot be created
       (∃ d, dirs ++ [d] <+: Make.parentDirs [] path ∧
        t = dirs.map (fun d => (.mkdir d, true)) ++ [(.mkdir d, false)] ∧ r = .exit 2) ∨
       -- the file cannot be opened
       (dirs = Make.parentDirs [] path ∧
        t = dirs.map (fun d => (.mkdir d, true)) ++ [(.open path, false)] ∧ r = .exit 1) ∨
       -- the file is written
       (dirs = Make.parentDirs [] path ∧ r = .exit 0 ∧
        ∃ b b', t = dirs.map (fun d => (.mkdir d, true)) ++
          [(.open path, true), (.write path text, b), (.close path, b')]))

theorem mkdirs_exec (ds : List Str) (k : Prog Call Outcome) (t : List (Call × Bool)) (r : Outcome)
    (h : (mkdirs ds k).Exec t r) :
    (∃ done d, done ++ [d] <+: ds ∧ t = done.map (fun d => (.mkdir d, true)) ++ [(.mkdir d, false)] ∧
      r = .exit 2) ∨
    ∃ t', t = ds.map (fun d => (.mkdir d, true)) ++ t' ∧ k.Exec t' r := by
  induction ds generalizing t with
  | nil => exact .inr ⟨t, rfl, h⟩
  | cons d ds ih =>
    simp only [mkdirs, Prog.require] at h
    cases h with
    | call h =>
      rename_i ok t
      cases ok with
      | false =>
        simp only [Bool.false_eq_true, if_false] at h
        cases h
        exact .inl ⟨[], d, List.cons_prefix_cons.2 ⟨rfl, List.nil_prefix⟩, rfl, rfl⟩
      | true =>
        simp only [if_true] at h
        rcases ih t h with ⟨done, e, h1, h2, h3⟩ | ⟨t', h1, h2⟩
        · exact .inl ⟨d :: done, e, List.cons_prefix_cons.2 ⟨rfl, h1⟩, by simp [h2], h3⟩
        · exact .inr ⟨t', by simp [h1], h2⟩

theorem writeOut_exec (o : Opts) (text : Str) (t : List (Call × Bool)) (r : Outcome)
    (h : (writeOut o text).Exec t r) : Written o text t r := by
  have std : ∀ {t : List (Call × Bool)} {r : Outcome},
      (Prog.call (Call.stdout text) fun _ => Prog.ret (Outcome.exit 0)).Exec t r →
      (∃ b, t = [(.stdout text, b)]) ∧ r = .exit 0 := by
    intro t r h
    cases h with
    | call h =>
      cases h
      exact ⟨⟨_, rfl⟩, rfl⟩
  unfold writeOut at h
  unfold Written fileOf
  cases ho : o.output with
  | none =>
    rw [ho] at h
    exact std h
  | some path =>
    rw [ho] at h
    simp only at h
    split at h
    · rename_i hp
      subst hp
      exact std h
    · rename_i hp
      have e : Option.filter (fun x => decide (x ≠ b!"-")) (some path) = some path := by
        simp [Option.filter, hp]
      rw [e]
      rcases mkdirs_exec _ _ t r h with ⟨done, d, h1, h2, h3⟩ | ⟨t', h1, h2⟩
      · exact ⟨done, .inl ⟨d, h1, h2, h3⟩⟩
      · refine ⟨Make.parentDirs [] path, .inr ?_⟩
        simp only [Prog.require] at h2
        cases h2 with
        | call h2 =>
          rename_i ok t2
          cases ok with
          | false =>
            simp only [Bool.false_eq_true, if_false] at h2
            cases h2
            exact .inl ⟨rfl, h1, rfl⟩
          | true =>
            simp only [if_true] at h2
            cases h2 with
            | call h3 =>
              cases h3 with
              | call h4 =>
                cases h4
                exact .inr ⟨rfl, rfl, _, _, h1⟩

/-- Every run: it either has no effect and does not succeed (or only prints help or the version, or
stops at a definition that is not UTF-8), or prints one variable, or has read
its options, sources, entries and template without error, has rendered them, and
writes the text. -/
theorem runs (env : Env) (args : List Str) (t : List (Call × Bool)) (r : Outcome)
    (h : (Main.main env args).Exec t r) :
    t = [] ∨
    (∃ v b, t = [(.stdout v, b)] ∧ r = .exit 0) ∨
    ∃ o text, argLoop env.make none args (initial env.version) = .ok (.ok o) ∧
      Produces env o text ∧ Written o text t r := by
  unfold Main.main at h
  split at h
  · cases h; exact .inl rfl
  · cases h; exact .inl rfl
  · rename_i o ho
    rcases body_cases env o with ⟨r', hr, -⟩ | ⟨v, -, hr⟩ | ⟨text, hp, hr⟩
    · rw [hr] at h; cases h; exact .inl rfl
    · rw [hr] at h
      cases h with
      | call h => cases h; exact .inr (.inl ⟨_, _, rfl, rfl⟩)
    · rw [hr] at h
      exact .inr (.inr ⟨o, text, ho, hp, writeOut_exec o text t r h⟩)

theorem not_open_mkdirs (dirs : List Str) (c : Call) (b : Bool)
    (h : (c, b) ∈ dirs.map (fun d => (Call.mkdir d, true))) : ∃ d ∈ dirs, c = .mkdir d := by
  obtain ⟨d, hd, e⟩ := List.mem_map.1 h
  exact ⟨d, hd, (Prod.mk.inj e).1.symm⟩

/-- If a run opens, writes or creates anything, then its sources, entries and
template were read and rendered without error; it touches only the output file
named by `-o`, and creates only directories above it; what it writes is the
rendered text. -/
theorem touches (env : Env) (args : List Str) (t : List (Call × Bool)) (r : Outcome)
    (h : (Main.main env args).Exec t r) (c : Call) (b : Bool) (hc : (c, b) ∈ t)
    (hs : ∀ v, c ≠ .stdout v) :
    ∃ o path text, argLoop env.make none args (initial env.version) = .ok (.ok o) ∧
      o.output = some path ∧ Produces env o text ∧
      (c = .open path ∨ c = .write path text ∨ c = .close path ∨
        ∃ d x rest, c = .mkdir d ∧ (x = c!"/" ∨ x = c!"\\") ∧ path = d ++ x :: rest) := by
  rcases runs env args t r h with rfl | ⟨v, b', rfl, -⟩ | ⟨o, text, ho, hp, hw⟩
  · cases hc
  · rcases List.mem_singleton.1 hc with e
    exact absurd (Prod.mk.inj e).1 (hs v)
  · unfold Written at hw
    cases hf : fileOf o with
    | none =>
      rw [hf] at hw
      obtain ⟨⟨b', rfl⟩, -⟩ := hw
      rcases List.mem_singleton.1 hc with e
      exact absurd (Prod.mk.inj e).1 (hs text)
    | some path =>
      rw [hf] at hw
      have hout : o.output = some path := by
        unfold fileOf at hf
        cases hoo : o.output with
        | none => rw [hoo] at hf; cases hf
        | some p =>
          rw [hoo, Option.filter_some] at hf
          split at hf
          · exact hf
          · cases hf
      refine ⟨o, path, text, ho, hout, hp, ?_⟩
      have dirOk : ∀ d, d ∈ Make.parentDirs [] path → ∃ x rest, (x = c!"/" ∨ x = c!"\\") ∧
          path = d ++ x :: rest := fun d hd => ((C59.parents path d).1 hd).2
      obtain ⟨dirs, ⟨d, hpre, rfl, -⟩ | ⟨rfl, rfl, -⟩ | ⟨rfl, -, b1, b2, rfl⟩⟩ := hw
      · obtain ⟨d', hd, rfl⟩ : ∃ d' ∈ dirs ++ [d], c = .mkdir d' := by
          rcases List.mem_append.1 hc with hc | hc
          · obtain ⟨d', hd, e⟩ := not_open_mkdirs _ _ _ hc
            exact ⟨d', List.mem_append_left _ hd, e⟩
          · rcases List.mem_singleton.1 hc with e
            exact ⟨d, by simp, (Prod.mk.inj e).1⟩
        obtain ⟨x, rest, h1, h2⟩ := dirOk d' (hpre.subset hd)
        exact .inr (.inr (.inr ⟨d', x, rest, rfl, h1, h2⟩))
      · rcases List.mem_append.1 hc with hc | hc
        · obtain ⟨d, hd, rfl⟩ := not_open_mkdirs _ _ _ hc
          obtain ⟨x, rest, h1, h2⟩ := dirOk d hd
          exact .inr (.inr (.inr ⟨d, x, rest, rfl, h1, h2⟩))
        · rcases List.mem_singleton.1 hc with e
          exact .inl (Prod.mk.inj e).1
      · rcases List.mem_append.1 hc with hc | hc
        · obtain ⟨d, hd, rfl⟩ := not_open_mkdirs _ _ _ hc
          obtain ⟨x, rest, h1, h2⟩ := dirOk d hd
          exact .inr (.inr (.inr ⟨d, x, rest, rfl, h1, h2⟩))
        · simp only [List.mem_cons, List.not_mem_nil, or_false, Prod.mk.injEq] at hc
          rcases hc with ⟨rfl, -⟩ | ⟨rfl, -⟩ | ⟨rfl, -⟩
          · exact .inl rfl
          · exact .inr (.inl rfl)
          · exact .inr (.inr (.inl rfl))

/-- A run that fails leaves an existing output file as it was: no file is opened
for writing. -/
theorem failure_keeps (env : Env) (args : List Str) (t : List (Call × Bool)) (r : Outcome)
    (h : (Main.main env args).Exec t r) (hr : r ≠ .exit 0) :
    ∀ p, (.open p, true) ∉ t ∧ ∀ x b, (.write p x, b) ∉ t := by
  have key : ∀ c b, (c, b) ∈ t → (∃ d, c = .mkdir d) ∨ b = false ∧ ∃ p, c = .open p := by
    intro c b hc
    rcases runs env args t r h with rfl | ⟨v, b', rfl, h'⟩ | ⟨o, text, ho, hp, hw⟩
    · cases hc
    · exact absurd h' hr
    · unfold Written at hw
      cases hf : fileOf o with
      | none => rw [hf] at hw; exact absurd hw.2 hr
      | some path =>
        rw [hf] at hw
        obtain ⟨dirs, ⟨d, hpre, rfl, -⟩ | ⟨rfl, rfl, -⟩ | ⟨rfl, h', -⟩⟩ := hw
        · rcases List.mem_append.1 hc with hc | hc
          · obtain ⟨d', hd, e⟩ := not_open_mkdirs _ _ _ hc
            exact .inl ⟨d', e⟩
          · rcases List.mem_singleton.1 hc with e
            exact .inl ⟨d, (Prod.mk.inj e).1⟩
        · rcases List.mem_append.1 hc with hc | hc
          · obtain ⟨d', hd, e⟩ := not_open_mkdirs _ _ _ hc
            exact .inl ⟨d', e⟩
          · rcases List.mem_singleton.1 hc with e
            exact .inr ⟨(Prod.mk.inj e).2, path, (Prod.mk.inj e).1⟩
        · exact absurd h' hr
  intro p
  refine ⟨fun hm => ?_, fun x b hm => ?_⟩
  · rcases key _ _ hm with ⟨d, e⟩ | ⟨e, -⟩ <;> cases e
  · rcases key _ _ hm with ⟨d, e⟩ | ⟨-, p, e⟩ <;> cases e

/-! Non-vacuity: a run that writes a file below a directory. -/

def sys : Render.Sys :=
  { rusage := none, hostname := none, datetime := none, username := none, insideDocker := false,
    strftime := fun _ _ => none }

def sampleEnv : Env :=
  { version := b!"1", make := false, stdin := [],
    loader := { parse := fun _ f => if f = b!"s" then some .nil else none, stamp := fun _ => none },
    template := fun f => if f = b!"t" then some [⟨.content, .none, some b!"hi", none⟩] else none,
    sys := sys, fuel := 10 }

theorem sample_run (b b' : Bool) : (Main.main sampleEnv [b!"-tt", b!"-o", b!"d/f", b!"s"]).Exec
    [(.mkdir b!"d", true), (.open b!"d/f", true), (.write b!"d/f" b!"hi", b), (.close b!"d/f", b')]
    (.exit 0) := by
  have e : Main.main sampleEnv [b!"-tt", b!"-o", b!"d/f", b!"s"] =
      mkdirs [b!"d"] (Prog.require (.open b!"d/f") (.exit 1)
        (.call (.write b!"d/f" b!"hi") fun _ => .call (.close b!"d/f") fun _ => .ret (.exit 0))) := by
    rfl
  rw [e]
  exact .call (.call (.call (.call (.ret _))))

end Blogc.C71
