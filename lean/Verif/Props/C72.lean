import Verif.Props.C71

/-!
# C72: success means that the output is complete
-/

namespace Blogc.C72

open Blogc.Main Blogc.C71

/-- A run that ends with exit status 0, in which no write failed, and that was
asked to render (it did not stop at an option and prints no variable): the
rendered text was written to the output file, or to the standard output. The
full statement does not assume that no write failed, see `write_violated`. -/
theorem complete_partial (env : Env) (args : List Str) (t : List (Call × Bool)) (o : Opts)
    (h : (Main.main env args).Exec t (.exit 0)) (hok : ∀ c b, (c, b) ∈ t → b = true)
    (ho : argLoop env.make none args (initial env.version) = .ok (.ok o)) (hp : o.print = none) :
    ∃ text, Produces env o text ∧
      match fileOf o with
      | none => t = [(.stdout text, true)]
      | some path => ∃ t0, t = t0 ++ [(.open path, true), (.write path text, true), (.close path, true)] ∧
          ∀ c b, (c, b) ∈ t0 → ∃ d, c = .mkdir d := by
  unfold Main.main at h
  rw [ho] at h
  simp only at h
  rcases body_cases env o with ⟨r', hr, hne⟩ | ⟨v, hp', -⟩ | ⟨text, hpr, hr⟩
  · rw [hr] at h
    cases h
    exact absurd rfl hne
  · exact absurd hp hp'
  · rw [hr] at h
    have hw := writeOut_exec o text t _ h
    refine ⟨text, hpr, ?_⟩
    unfold Written at hw
    cases hf : fileOf o with
    | none =>
      rw [hf] at hw
      obtain ⟨⟨b, rfl⟩, -⟩ := hw
      have := hok _ _ (List.mem_singleton.2 rfl)
      rw [this]
    | some path =>
      rw [hf] at hw
      obtain ⟨dirs, ⟨d, -, -, e⟩ | ⟨-, -, e⟩ | ⟨-, -, b1, b2, rfl⟩⟩ := hw
      · cases e
      · cases e
      · have h1 : b1 = true := hok (.write path text) b1 (by simp)
        have h2 : b2 = true := hok (.close path) b2 (by simp)
        subst h1 h2
        refine ⟨_, rfl, fun c b hc => ?_⟩
        obtain ⟨d, -, e⟩ := not_open_mkdirs _ _ _ hc
        exact ⟨d, e⟩

/-- A full disk: the output file is emptied, writing to it fails, and the program
ends with exit status 0. -/
theorem write_violated :
    ∃ env args t path text, (Main.main env args).Exec t (.exit 0) ∧
      (.open path, true) ∈ t ∧ (.write path text, false) ∈ t ∧ text ≠ [] :=
  ⟨sampleEnv, [b!"-tt", b!"-o", b!"d/f", b!"s"], _, b!"d/f", b!"hi", sample_run false false,
    by simp, by simp, by decide⟩

/-- With `-p` and an empty name the program reads outside the name. -/
theorem empty_name_violated :
    ∃ env args, Main.main env args = .ret .undefined :=
  ⟨sampleEnv, [b!"-p", b!"", b!"s"], rfl⟩

/-! Non-vacuity. -/

example : ∃ t o, (Main.main sampleEnv [b!"-tt", b!"-o", b!"d/f", b!"s"]).Exec t (.exit 0) ∧
    (∀ c b, (c, b) ∈ t → b = true) ∧
    argLoop sampleEnv.make none [b!"-tt", b!"-o", b!"d/f", b!"s"] (initial sampleEnv.version)
      = .ok (.ok o) ∧ o.print = none := by
  refine ⟨_, _, sample_run true true, ?_, rfl, rfl⟩
  intro c b h
  simp only [List.mem_cons, List.not_mem_nil, or_false, Prod.mk.injEq] at h
  rcases h with ⟨-, h⟩ | ⟨-, h⟩ | ⟨-, h⟩ | ⟨-, h⟩ <;> exact h

end Blogc.C72
