import Verif.Model.MakeExec
import Verif.Props.C06

/-!
# C57: commands run by blogc-make have the intended arguments
-/

namespace Blogc.C57

open Blogc Blogc.Make Blogc.Shell

/-- A byte that means itself to the shell, without quotes. -/
def PlainByte (c : Byte) : Prop :=
  isBlank c = false ∧ c ≠ c!"'" ∧ c ≠ c!"\"" ∧ c ≠ c!"\\" ∧ isSpecial c = false

instance (c : Byte) : Decidable (PlainByte c) := inferInstanceAs (Decidable (_ ∧ _ ∧ _ ∧ _ ∧ _))

/-- A text that means itself to the shell, without quotes. -/
def Plain (s : Str) : Prop := ∀ c ∈ s, PlainByte c

instance (s : Str) : Decidable (Plain s) := inferInstanceAs (Decidable (∀ c ∈ s, PlainByte c))

/-- The arguments meant for a table of variables. -/
def defines (t : Option (Trie Str)) : List Str :=
  match t with
  | none => []
  | some t => (t.foreach []).flatMap fun kv => [b!"-D", kv.1 ++ b!"=" ++ kv.2.getD []]

/-- The arguments meant for a flag with a value. -/
def flag (f : Str) (v : Option Str) : List Str :=
  match v with
  | none => []
  | some v => [f, v]

/-- The command meant: an assignment for the locale, the executable, and its
arguments. -/
def meant (exe : Str) (settings : Option CmdSettings) (globals locals : Option (Trie Str))
    (print : Option Str) (listing : Bool) (listingEntry template output : Option Str) (dev stdin : Bool) :
    List Str :=
  (match settings.bind (·.locale) with
    | none => []
    | some l => [b!"LC_ALL=" ++ l]) ++
  [exe] ++
  (match settings.bind (·.tags) with
    | none => []
    | some tags => [b!"-D", b!"MAKE_TAGS=" ++ join b!" " tags]) ++
  defines (settings.map (·.globals)) ++ defines globals ++ defines locals ++
  (if dev then [b!"-D", b!"MAKE_ENV_DEV=1", b!"-D", b!"MAKE_ENV=dev"] else []) ++
  flag b!"-p" print ++
  (if listing then b!"-l" :: flag b!"-e" listingEntry else []) ++
  flag b!"-t" template ++ flag b!"-o" output ++
  (if stdin then [b!"-i"] else [])

/-- The names of a table of variables are plain, and the values are C strings. -/
def VarsOk (t : Option (Trie Str)) : Prop :=
  ∀ t', t = some t' → ∀ kv ∈ t'.foreach [], Plain kv.1 ∧ NulFree (kv.2.getD [])

/-- An optional C string. -/
def OptOk (s : Option Str) : Prop := ∀ v, s = some v → NulFree v

/-! ## Words -/

theorem lex_plain (w : Str) (hw : Plain w) (cur : Option Str) (rest : Str) (hne : w ≠ [] ∨ cur.isSome) :
    lex .plain cur (w ++ rest) = lex .plain (some (cur.getD [] ++ w)) rest := by
  induction w generalizing cur with
  | nil =>
    rcases hne with h | h
    · exact absurd rfl h
    · cases cur with
      | none => simp at h
      | some c => simp
  | cons c w ih =>
    obtain ⟨h1, h2, h3, h4, h5⟩ := hw c (by simp)
    rw [List.cons_append, lex, if_neg (by simp [h1]), if_neg h2, if_neg h3, if_neg h4, if_neg (by simp [h5]),
      ih (fun d hd => hw d (by simp [hd])) _ (Or.inr rfl)]
    simp

/-- Appending the text `x` to a command adds the words `ws`. -/
def Adds (x : Str) (ws : List Str) : Prop :=
  ∀ pre vs, words pre = some vs → words (pre ++ x) = some (vs ++ ws)

theorem adds_nil : Adds [] [] := by
  intro pre vs h
  simpa using h

theorem Adds.append {x y : Str} {a b : List Str} (h : Adds x a) (h' : Adds y b) : Adds (x ++ y) (a ++ b) := by
  intro pre vs hv
  have := h' _ _ (h pre vs hv)
  simpa using this

theorem adds_blank (y : Str) (ws : List Str) (h : words y = some ws) : Adds (c!" " :: y) ws := by
  intro pre vs hv
  have := C06.lex_blank .plain none pre y vs hv
  rw [words, this]
  rw [words] at h
  rw [h]
  rfl

theorem words_plain (w : Str) (hw : Plain w) (hne : w ≠ []) : words w = some [w] := by
  have := lex_plain w hw none [] (Or.inl hne)
  simp only [List.append_nil] at this
  rw [words, this]
  simp [lex]

theorem words_assign (k v : Str) (hk : Plain k) (hv : NulFree v) :
    words (k ++ b!"=" ++ shellQuote (some v)) = some [k ++ b!"=" ++ v] := by
  have hp : Plain (k ++ b!"=") := by
    intro c hc
    rcases List.mem_append.1 hc with h | h
    · exact hk c h
    · rw [List.mem_singleton.1 h]; decide
  rw [words, lex_plain _ hp none _ (Or.inl (by simp))]
  have := C06.quote_lex v hv (some (k ++ b!"=")) []
  simp only [List.append_nil] at this
  simp only [Option.getD_none, List.nil_append, this]
  simp [lex]

theorem adds_define (kv : Str × Option Str) (hk : Plain kv.1) (hv : NulFree (kv.2.getD [])) :
    Adds (listVariable kv) [b!"-D", kv.1 ++ b!"=" ++ kv.2.getD []] := by
  have e : shellQuote kv.2 = shellQuote (some (kv.2.getD [])) := by
    cases kv.2 <;> rfl
  have h1 := adds_blank b!"-D" [b!"-D"] (by decide)
  have h2 := adds_blank _ _ (words_assign kv.1 (kv.2.getD []) hk hv)
  have := h1.append h2
  unfold listVariable
  rw [e]
  simpa using this

theorem adds_defines (t : Option (Trie Str)) (h : VarsOk t) : Adds (listVariables t) (defines t) := by
  cases t with
  | none => exact adds_nil
  | some t =>
    have h := h t rfl
    unfold listVariables defines
    simp only
    generalize t.foreach [] = l at h
    induction l with
    | nil => exact adds_nil
    | cons kv l ih =>
      obtain ⟨h1, h2⟩ := h kv (by simp)
      simp only [List.flatMap_cons]
      exact (adds_define kv h1 h2).append (ih (fun kv' h' => h kv' (by simp [h'])))

theorem adds_flag (f : Str) (hf : words f = some [f]) (v : Option Str) (hv : OptOk v) :
    Adds (flagQuoted f v) (flag f v) := by
  cases v with
  | none => exact adds_nil
  | some v =>
    have h1 := adds_blank _ _ hf
    have h2 := adds_blank _ _ (C06.quote_word v (hv v rfl))
    have := h1.append h2
    simpa [flagQuoted, flag] using this

theorem words_tags (tags : Str) (hn : NulFree tags) (hq : c!"'" ∉ tags) :
    words (b!"MAKE_TAGS='" ++ tags ++ b!"'") = some [b!"MAKE_TAGS=" ++ tags] := by
  have h0 : ∀ (s cur : Str), NulFree s → c!"'" ∉ s →
      lex .squote (some cur) (s ++ b!"'") = some [cur ++ s] := by
    intro s
    induction s with
    | nil => intro cur _ _; simp [lex]
    | cons c s ih =>
      intro cur h1 h2
      simp only [List.mem_cons, not_or] at h2
      rw [List.cons_append, lex, if_neg (h1 c (by simp)), if_neg (Ne.symm h2.1),
        ih _ (fun d hd => h1 d (by simp [hd])) h2.2]
      simp
  have h1 := lex_plain b!"MAKE_TAGS=" (by decide) none (b!"'" ++ tags ++ b!"'") (Or.inl (by simp))
  have e : b!"MAKE_TAGS='" ++ tags ++ b!"'" = b!"MAKE_TAGS=" ++ (b!"'" ++ tags ++ b!"'") := by simp
  rw [words, e, h1]
  have h2 := h0 tags b!"MAKE_TAGS=" hn hq
  simp only [List.append_assoc, List.cons_append, List.nil_append]
  rw [lex]
  simp only [Option.getD_none, List.nil_append, Option.getD_some]
  rw [if_neg (by decide), if_pos trivial]
  exact h2

/-! ## The command -/

/-- The text for `-p`. -/
def printText : Option Str → Str
  | none => []
  | some p => b!" -p " ++ p

/-- The shell splits the command into the words meant. -/
def Correct (bin exe : Str) (settings : Option CmdSettings) (globals locals : Option (Trie Str))
    (print : Option Str) (listing : Bool) (listingEntry template output : Option Str) (dev stdin : Bool) : Prop :=
  words (buildBlogcCmd bin settings globals locals print listing listingEntry template output dev stdin) =
    some (meant exe settings globals locals print listing listingEntry template output dev stdin)

/-- Proved part: whatever the values of the variables, the paths and the
locale, the shell sees exactly the arguments meant, provided that no tag has a
single quote. The names of variables are plain, as checked for the settings
(`key_plain`); `print` is a fixed name of a variable. Missing: tags with a quote,
see `tags_violated`. -/
theorem command_partial (bin exe : Str) (settings : Option CmdSettings) (globals locals : Option (Trie Str))
    (print : Option Str) (listing : Bool) (listingEntry template output : Option Str) (dev stdin : Bool)
    (hbin : words bin = some [exe])
    (hset : VarsOk (settings.map (·.globals))) (hloc : OptOk (settings.bind (·.locale)))
    (htags : ∀ tags, settings.bind (·.tags) = some tags → ∀ t ∈ tags, NulFree t ∧ c!"'" ∉ t)
    (hg : VarsOk globals) (hl : VarsOk locals)
    (hp : ∀ p, print = some p → Plain p ∧ p ≠ [])
    (he : OptOk listingEntry) (ht : OptOk template) (ho : OptOk output) :
    Correct bin exe settings globals locals print listing listingEntry template output dev stdin := by
  have a0 : words ((match settings.bind (·.locale) with
      | none => []
      | some l => b!"LC_ALL=" ++ shellQuote (some l) ++ b!" ") ++ bin) =
      some ((match settings.bind (·.locale) with
      | none => []
      | some l => [b!"LC_ALL=" ++ l]) ++ [exe]) := by
    cases h : settings.bind (·.locale) with
    | none => simpa using hbin
    | some l =>
      have h1 := words_assign b!"LC_ALL" l (by decide) (hloc l h)
      have := adds_blank bin [exe] hbin _ _ h1
      simpa using this
  have a1 : Adds (match settings.bind (·.tags) with
      | none => []
      | some tags => b!" -D MAKE_TAGS='" ++ join b!" " tags ++ b!"'")
      (match settings.bind (·.tags) with
      | none => []
      | some tags => [b!"-D", b!"MAKE_TAGS=" ++ join b!" " tags]) := by
    cases h : settings.bind (·.tags) with
    | none => exact adds_nil
    | some tags =>
      have hj : ∀ tags : List Str, (∀ t ∈ tags, NulFree t ∧ c!"'" ∉ t) →
          NulFree (join b!" " tags) ∧ c!"'" ∉ join b!" " tags := by
        intro tags
        induction tags with
        | nil => intro _; exact ⟨by decide, by simp [join]⟩
        | cons t l ih =>
          intro h
          cases l with
          | nil => simpa [join] using h t (by simp)
          | cons q l =>
            have h1 := h t (by simp)
            have h2 := ih (fun t' h' => h t' (by simp [h']))
            rw [join]
            constructor
            · intro b hb
              simp only [List.mem_append] at hb
              rcases hb with (hb | hb) | hb
              · exact h1.1 b hb
              · rw [List.mem_singleton.1 hb]; decide
              · exact h2.1 b hb
            · simp only [List.mem_append, not_or]
              exact ⟨⟨h1.2, by decide⟩, h2.2⟩
      obtain ⟨h1, h2⟩ := hj tags (htags tags h)
      have := (adds_blank b!"-D" [b!"-D"] (by decide)).append (adds_blank _ _ (words_tags _ h1 h2))
      simpa using this
  have a2 := adds_defines _ hset
  have a3 := adds_defines _ hg
  have a4 := adds_defines _ hl
  have a5 : Adds (if dev then b!" -D MAKE_ENV_DEV=1 -D MAKE_ENV='dev'" else [])
      (if dev then [b!"-D", b!"MAKE_ENV_DEV=1", b!"-D", b!"MAKE_ENV=dev"] else []) := by
    cases dev
    · exact adds_nil
    · exact adds_blank b!"-D MAKE_ENV_DEV=1 -D MAKE_ENV='dev'" _ (by decide)
  have a6 : Adds (printText print) (flag b!"-p" print) := by
    cases print with
    | none => exact adds_nil
    | some p =>
      obtain ⟨h1, h2⟩ := hp p rfl
      have := (adds_blank b!"-p" [b!"-p"] (by decide)).append (adds_blank p [p] (words_plain p h1 h2))
      simpa [flag, printText] using this
  have a7 : Adds (if listing then b!" -l" ++ flagQuoted b!"-e" listingEntry else [])
      (if listing then b!"-l" :: flag b!"-e" listingEntry else []) := by
    cases listing
    · exact adds_nil
    · have := (adds_blank b!"-l" [b!"-l"] (by decide)).append (adds_flag b!"-e" (by decide) _ he)
      simpa using this
  have a8 := adds_flag b!"-t" (by decide) _ ht
  have a9 := adds_flag b!"-o" (by decide) _ ho
  have a10 : Adds (if stdin then b!" -i" else []) (if stdin then [b!"-i"] else []) := by
    cases stdin
    · exact adds_nil
    · exact adds_blank b!"-i" [b!"-i"] (by decide)
  have := ((((((((((a1.append a2).append a3).append a4).append a5).append a6).append a7).append a8).append a9).append
    a10)) _ _ a0
  unfold Correct
  have e1 : buildBlogcCmd bin settings globals locals print listing listingEntry template output dev stdin =
      ((match settings.bind (·.locale) with
        | none => []
        | some l => b!"LC_ALL=" ++ shellQuote (some l) ++ b!" ") ++ bin) ++
      ((((((((((match settings.bind (·.tags) with
        | none => []
        | some tags => b!" -D MAKE_TAGS='" ++ join b!" " tags ++ b!"'") ++
        listVariables (settings.map (·.globals))) ++ listVariables globals) ++ listVariables locals) ++
        (if dev then b!" -D MAKE_ENV_DEV=1 -D MAKE_ENV='dev'" else [])) ++
        printText print) ++
        (if listing then b!" -l" ++ flagQuoted b!"-e" listingEntry else [])) ++ flagQuoted b!"-t" template) ++
        flagQuoted b!"-o" output) ++ (if stdin then b!" -i" else [])) := by
    unfold buildBlogcCmd
    rcases settings with _ | ⟨sg, sl, st⟩
    · cases dev <;> cases print <;> cases listing <;> cases stdin <;> simp [listVariables, printText]
    · cases sl <;> cases st <;> cases dev <;> cases print <;> cases listing <;> cases stdin <;> simp [printText]
  rw [e1, this]
  unfold meant
  simp only [List.append_assoc]

/-- Names of variables, as checked by the settings parser (upper case letters,
digits and underscores), are plain. -/
theorem key_plain (k : Str) (h : ∀ c ∈ k, (c!"A" ≤ c ∧ c ≤ c!"Z") ∨ (c!"0" ≤ c ∧ c ≤ c!"9") ∨ c = c!"_") :
    Plain k := by
  have key : ∀ n : Fin 256, ((c!"A" ≤ UInt8.ofFin n ∧ UInt8.ofFin n ≤ c!"Z") ∨
      (c!"0" ≤ UInt8.ofFin n ∧ UInt8.ofFin n ≤ c!"9") ∨ UInt8.ofFin n = c!"_") → PlainByte (UInt8.ofFin n) := by
    decide +kernel
  intro c hc
  exact key c.toFin (h c hc)

/-- The executable found is always one word. -/
theorem binary_word (bin : Str) (env near : Option Str) (hb : Plain bin) (hne : bin ≠ []) (he : OptOk env)
    (hn : OptOk near) :
    words (findBinary bin env near) = some [match env with
      | some e => e
      | none => match near with
        | some p => p
        | none => bin] := by
  unfold findBinary
  cases env with
  | some e => exact C06.quote_word e (he e rfl)
  | none =>
    cases near with
    | some p => exact C06.quote_word p (hn p rfl)
    | none => exact words_plain bin hb hne

/-- The command that runs the web server. -/
theorem runserver_command (bin exe : Str) (host port threads : Option Str) (dir : Str)
    (hbin : words bin = some [exe]) (hh : OptOk host) (hp : OptOk port) (ht : OptOk threads) (hd : NulFree dir) :
    words (runserverCmd bin host port threads dir) =
      some (exe :: flag b!"-t" host ++ flag b!"-p" port ++ flag b!"-m" threads ++ [dir]) := by
  have := (((adds_flag b!"-t" (by decide) _ hh).append (adds_flag b!"-p" (by decide) _ hp)).append
    (adds_flag b!"-m" (by decide) _ ht)).append (adds_blank _ _ (C06.quote_word dir hd)) _ _ hbin
  unfold runserverCmd
  simpa using this

/-- The property fails for tags: a quote in a tag ends the quoting, and the rest
of the tag is read by the shell. This tag runs another command. -/
theorem tags_violated : ∃ settings : CmdSettings,
    ¬ Correct b!"blogc" b!"blogc" (some settings) none none none false none none none false false ∧
    buildBlogcCmd b!"blogc" (some settings) none none none false none none none false false =
      b!"blogc -D MAKE_TAGS='x';reboot;'y'" :=
  ⟨⟨.nil, none, some [b!"x';reboot;'y"]⟩, by unfold Correct; decide, by decide⟩

/-! ## A sample -/

def sampleSettings : CmdSettings :=
  ⟨(Trie.inserts [(b!"SITE_TITLE", b!"It's $HOME!"), (b!"A", b!"")]).1, some b!"en_US.utf8", some [b!"a", b!"b;c"]⟩

example : words (buildBlogcCmd (shellQuote (some b!"/opt/my bin/blogc")) (some sampleSettings) none
    (some (Trie.inserts [(b!"FILTER_PAGE", b!"1")]).1) (some b!"LAST_PAGE") true none (some b!"t`x`.tmpl") none true true) =
    some [b!"LC_ALL=en_US.utf8", b!"/opt/my bin/blogc", b!"-D", b!"MAKE_TAGS=a b;c",
      b!"-D", b!"SITE_TITLE=It's $HOME!", b!"-D", b!"A=", b!"-D", b!"FILTER_PAGE=1", b!"-D", b!"MAKE_ENV_DEV=1",
      b!"-D", b!"MAKE_ENV=dev", b!"-p", b!"LAST_PAGE", b!"-l", b!"-t", b!"t`x`.tmpl", b!"-i"] := by
  decide +kernel
example : VarsOk (some sampleSettings.globals) := by
  rintro t ⟨⟩
  decide
example : ∀ t ∈ [b!"a", b!"b;c"], NulFree t ∧ c!"'" ∉ t := by decide

end Blogc.C57
