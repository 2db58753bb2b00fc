import Verif.Lemmas.MainCongr
import Verif.Lemmas.LoaderCount
import Verif.Lemmas.Utf8
import Verif.Props.C23
import Verif.Props.C29

/-!
# When blogc ends with an exit status
-/

namespace Blogc

theorem strtol_lt (s : Str) : (strtol s).1 < 2 ^ 63 := by
  unfold strtol
  split
  · simp
  · simp only
    split
    · have : max (-(2 ^ 63) : Int) (-(↑‹Nat›)) < 2 ^ 63 := by omega
      omega
    · omega

namespace Loader

theorem order_defined (sort reverse : Bool) (l : List Vars) : ∃ r, order sort reverse l = .ok r := by
  unfold order
  cases sort with
  | true =>
    obtain ⟨r, h, -⟩ := C10.sort_safe (fun _ => if reverse then sortSourceReverse else sortSource) l
      (l.length + 1) (by omega)
    simp only [if_true, h]
    exact ⟨_, rfl⟩
  | false => cases reverse <;> exact ⟨_, rfl⟩

theorem loadLoop_length {env : Env} {d : Option Str} {sort : Bool} : ∀ {l : List Str} {srcs : List Vars} {n : Nat},
    loadLoop env d sort l = some (srcs, n) → srcs.length = l.length
  | [], _, _, h => by cases h; rfl
  | f :: l, srcs, n, h => by
    rw [loadLoop] at h
    split at h
    · cases h
    · simp only at h
      split at h
      next hr =>
        cases h
        rw [List.length_cons, List.length_cons, loadLoop_length hr]
      · cases h

theorem select_defined (conf : Vars) (l : List Vars) (hc : l.length < 2 ^ 24)
    (hp : ∀ p, conf.lookup b!"FILTER_PAGE" = some p → 0 < perPageOf (conf.lookup b!"FILTER_PER_PAGE") ∧
      (pageOf (some p) - 1) * perPageOf (conf.lookup b!"FILTER_PER_PAGE") < 2 ^ 63) :
    ∃ r, select conf l = .ok r := by
  cases h : conf.lookup b!"FILTER_PAGE" with
  | none => exact ⟨_, select_unpaged conf h l⟩
  | some p =>
    obtain ⟨h1, h2⟩ := hp p h
    have h3 : perPageOf (conf.lookup b!"FILTER_PER_PAGE") < 2 ^ 63 := by
      unfold perPageOf
      have := strtol_lt ((conf.lookup b!"FILTER_PER_PAGE").getD b!"10")
      omega
    unfold select
    simp only [h, Option.isSome_some, if_true, if_neg (Nat.not_le.2 h2)]
    rw [pageLoop_paged _ _ _ (by omega)]
    have h4 : (l.filter (tagOk (conf.lookup b!"FILTER_TAG"))).length ≤ l.length := List.length_filter_le _ _
    simp only [pageVars]
    rw [C29.lastPage_exact _ _ h1 h3 (by omega)]
    exact ⟨_, rfl⟩

theorem fromFiles_defined (env : Env) (conf : Vars) (l : List Str) (hc : l.length < 2 ^ 24)
    (hp : ∀ p, conf.lookup b!"FILTER_PAGE" = some p → 0 < perPageOf (conf.lookup b!"FILTER_PER_PAGE") ∧
      (pageOf (some p) - 1) * perPageOf (conf.lookup b!"FILTER_PER_PAGE") < 2 ^ 63) :
    ∃ r, fromFiles env conf l = .ok r := by
  unfold fromFiles
  simp only
  split
  · exact ⟨_, rfl⟩
  next srcs n hl =>
    split
    · exact ⟨_, rfl⟩
    · obtain ⟨r, hr⟩ := order_defined (strToBool (conf.lookup b!"FILTER_SORT"))
        (strToBool (conf.lookup b!"FILTER_REVERSE")) srcs
      obtain ⟨r', hr'⟩ := select_defined conf r
        (by rw [(order_perm _ _ _ _ hr).length_eq, loadLoop_length hl]; exact hc) hp
      rw [hr]
      show ∃ x, (select conf r >>= _) = _
      rw [hr']
      exact ⟨_, rfl⟩

end Loader

namespace Main

/-- The program ends with an exit status, whatever the system answers. -/
def Ends (p : Prog Call Outcome) : Prop := ∀ t r, p.Exec t r → ∃ n, r = .exit n

theorem ends_ret (n : Nat) : Ends (.ret (.exit n)) := fun _ _ h => by cases h; exact ⟨n, rfl⟩

theorem ends_call {c : Call} {k : Bool → Prog Call Outcome} (h : ∀ b, Ends (k b)) : Ends (.call c k) :=
  fun _ _ hx => by
    cases hx with
    | call hx => exact h _ _ _ hx

theorem ends_require {c : Call} {n : Nat} {k : Prog Call Outcome} (h : Ends k) :
    Ends (Prog.require c (.exit n) k) :=
  ends_call fun b => by
    cases b
    · exact ends_ret n
    · exact h

theorem ends_mkdirs : ∀ (ds : List Str) {k : Prog Call Outcome}, Ends k → Ends (mkdirs ds k)
  | [], _, h => h
  | _ :: ds, _, h => ends_require (ends_mkdirs ds h)

theorem ends_writeOut (o : Opts) (text : Str) : Ends (writeOut o text) := by
  unfold writeOut
  split
  · exact ends_call fun _ => ends_ret 0
  · split
    · exact ends_call fun _ => ends_ret 0
    · exact ends_mkdirs _ (ends_require (ends_call fun _ => ends_call fun _ => ends_ret 0))

theorem withValue_defined (c : Byte) (v : Str) (o : Opts) : ∃ r, withValue c v o = .ok r := by
  have hd : ∃ r, define v o = .ok r := by
    unfold define
    rw [Utf8.validate_eq]
    simp only [Res.bind]
    repeat' split
    all_goals exact ⟨_, rfl⟩
  unfold withValue
  repeat' split
  all_goals first | exact ⟨_, rfl⟩ | exact hd

theorem option_defined (make : Bool) (c : Byte) (attached : Str) (o : Opts) :
    ∃ r, option make c attached o = .ok r := by
  obtain ⟨r, hr⟩ := withValue_defined c attached o
  unfold option
  rw [hr]
  simp only [Res.bind]
  repeat' split
  all_goals exact ⟨_, rfl⟩

theorem argLoop_defined (make : Bool) : ∀ (args : List Str) (p : Option Byte) (o : Opts), ∃ r, argLoop make p args o = .ok r
  | [], _, o => ⟨_, by rw [argLoop]⟩
  | v :: rest, some c, o => by
    rw [argLoop]
    obtain ⟨r, hr⟩ := withValue_defined c v o
    rw [hr]
    cases r with
    | error s => exact ⟨_, rfl⟩
    | ok o => exact argLoop_defined make rest none o
  | [] :: rest, none, o => by
    rw [argLoop]
    exact argLoop_defined make rest none _
  | (a0 :: more) :: rest, none, o => by
    rw [argLoop.eq_def]
    simp only
    split
    · cases more with
      | nil => exact ⟨_, rfl⟩
      | cons c attached =>
        obtain ⟨r, hr⟩ := option_defined make c attached o
        simp only [hr]
        cases r with
        | stop s => exact ⟨_, rfl⟩
        | go o => exact argLoop_defined make rest none o
        | wait c => exact argLoop_defined make rest (some c) o
    · exact argLoop_defined make rest none _

theorem body_ends (env : Env) (o : Opts) (hl : ∃ r, Loader.fromFiles env.loader o.config (allSources env o) = .ok r)
    (ht : ∀ t l, o.template = some t → env.template t = some l → ∀ ctx entries g,
      ∃ out n, ∀ m, n ≤ m → Render.render (Render.evaluator env.sys) m l ctx entries g = .ok out)
    (hp : o.print ≠ some []) : ∃ n, ∀ fuel, n ≤ fuel → Ends (body { env with fuel := fuel } o) := by
  have hall : ∀ fuel, allSources { env with fuel := fuel } o = allSources env o := fun _ => rfl
  have hent : ∀ fuel d l, loadEntries { env with fuel := fuel } d l = loadEntries env d l := by
    intro fuel d l
    exact loadEntries_congr d l fun _ _ => rfl
  obtain ⟨r, hr⟩ := hl
  unfold body
  simp only [hall, hent, hr]
  split
  · exact ⟨0, fun _ _ => ends_ret 1⟩
  cases r with
  | none => exact ⟨0, fun _ _ => ends_ret 1⟩
  | some r =>
    obtain ⟨s, config⟩ := r
    simp only
    split
    · exact ⟨0, fun _ _ => ends_ret 1⟩
    next entries _ =>
      split
      next name hname =>
        refine ⟨0, fun fuel _ => ?_⟩
        unfold printVariable
        obtain ⟨r, hr⟩ := C27.in_bounds env.sys config (if o.listing then none else s.head?) {} name
          (fun e => hp (by rw [hname, e]))
        simp only [hr]
        obtain ⟨g, v⟩ := r
        cases v with
        | none => exact ends_ret _
        | some v => exact ends_call fun _ => ends_ret 0
      · unfold renderAll
        cases h1 : o.template with
        | none => exact ⟨0, fun _ _ => ends_ret 1⟩
        | some t =>
          simp only
          cases h2 : env.template t with
          | none => exact ⟨0, fun _ _ => ends_ret 1⟩
          | some l =>
            obtain ⟨out, n, hn⟩ := ht t l h1 h2 ⟨s, o.listing⟩ entries config
            refine ⟨n, fun fuel hf => ?_⟩
            simp only [hn fuel hf]
            exact ends_writeOut o out

end Main

end Blogc
