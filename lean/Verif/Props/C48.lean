import Verif.Model.Httpd
import Verif.Spec.Http
import Verif.Props.C02
import Verif.Props.C46
import Verif.Lemmas.Numbers

/-!
# C48: every request gets a well-formed answer
-/

namespace Blogc.C48

open Blogc Blogc.Httpd Blogc.Http Blogc.Url

theorem decNat_decimal (n : Nat) : decNat n = WellFormed.decimal n := by
  have digit : ∀ n, n < 10 → UInt8.ofNat (48 + n) = UInt8.ofNat (Nat.digitChar n).toNat := by decide
  induction n using Nat.strongRecOn with
  | ind n ih =>
    rw [decNat_eq]
    unfold WellFormed.decimal at *
    by_cases h : n < 10
    · rw [if_pos h, Nat.toDigits_of_lt_base h, digit n h]
      rfl
    · rw [if_neg h, Nat.toDigits_of_base_le (by omega) (by omega), ih (n / 10) (by omega),
        List.map_append, digit (n % 10) (by omega)]
      rfl

/-! ## Reading back a rendered response -/

theorem takeLine_line (l r : Str) (h : c!"\r" ∉ l) :
    takeLine (l ++ c!"\r" :: c!"\n" :: r) = some (l, r) := by
  induction l with
  | nil => rw [List.nil_append, takeLine]; simp
  | cons c l ih =>
    have hc : c ≠ c!"\r" := fun e => h (by simp [e])
    have ih' := ih (fun m => h (by simp [m]))
    cases l with
    | nil =>
      rw [List.nil_append] at ih'
      rw [List.cons_append, List.nil_append, takeLine, if_neg (fun e => hc e.1), ih']
      rfl
    | cons d l =>
      rw [List.cons_append] at ih'
      rw [List.cons_append, List.cons_append, takeLine, if_neg (fun e => hc e.1), ih']
      rfl

/-- A head given by its lines, and a body. -/
def render (lines : List Str) (body : Str) : Str :=
  lines.flatMap (fun l => l ++ b!"\r\n") ++ b!"\r\n" ++ body

theorem readHead_render (lines : List Str) (body : Str) (n : Nat) (hn : lines.length < n)
    (h : ∀ l ∈ lines, l ≠ [] ∧ c!"\r" ∉ l) : readHead n (render lines body) = some (lines, body) := by
  induction lines generalizing n with
  | nil =>
    cases n with
    | zero => simp at hn
    | succ n =>
      have e : render [] body = ([] : Str) ++ c!"\r" :: c!"\n" :: body := by simp [render]
      rw [e, readHead, takeLine_line [] body (by simp)]
      rfl
  | cons l lines ih =>
    cases n with
    | zero => simp at hn
    | succ n =>
      have e : render (l :: lines) body = l ++ c!"\r" :: c!"\n" :: render lines body := by
        simp [render]
      obtain ⟨h1, h2⟩ := h l (by simp)
      rw [e, readHead, takeLine_line l _ h2]
      simp only [if_neg h1]
      rw [ih n (by simp at hn; omega) (fun x hx => h x (by simp [hx]))]
      rfl

theorem parse_render (lines : List Str) (body : Str) (h : ∀ l ∈ lines, l ≠ [] ∧ c!"\r" ∉ l) :
    parse (render lines body) = some (lines, body) := by
  unfold parse
  refine readHead_render lines body _ ?_ h
  have : lines.length ≤ (lines.flatMap (fun l => l ++ b!"\r\n")).length := by
    induction lines with
    | nil => simp
    | cons l lines ih =>
      have := ih (fun x hx => h x (by simp [hx]))
      simp at this ⊢
      omega
  simp only [render, List.length_append]
  omega

theorem decNat_plain (n : Nat) : c!"\r" ∉ decNat n ∧ c!"\n" ∉ decNat n := by
  constructor <;> intro h <;> exact absurd (decNat_digits n _ h) (by decide)

/-! ## The three kinds of answers -/

theorem error_wellFormed (status : Nat) (msg : Str) (h1 : c!"\r" ∉ msg) :
    WellFormed status (errorBytes status msg) := by
  have hd := decNat_plain status
  have hd' := decNat_plain (msg.length + 10)
  have e : errorBytes status msg = render
      [b!"HTTP/1.0 " ++ decNat status ++ b!" " ++ msg, b!"Content-Type: text/html",
       b!"Content-Length: " ++ decNat (msg.length + 10), b!"Connection: close"]
      (b!"<h1>" ++ msg ++ b!"</h1>\n") := by
    simp [errorBytes, render]
  have hp := parse_render
      [b!"HTTP/1.0 " ++ decNat status ++ b!" " ++ msg, b!"Content-Type: text/html",
       b!"Content-Length: " ++ decNat (msg.length + 10), b!"Connection: close"]
      (b!"<h1>" ++ msg ++ b!"</h1>\n") (by
    intro l hl
    simp only [List.mem_cons, List.not_mem_nil, or_false] at hl
    rcases hl with rfl | rfl | rfl | rfl
    · simp [h1, hd.1]
    · decide
    · simp [hd'.1]
    · decide)
  rw [← e] at hp
  refine ⟨_, _, _, hp, ?_, ?_, ?_⟩
  · rw [decNat_decimal]
    exact ⟨msg, rfl⟩
  · intro l hl
    simp only [List.mem_cons, List.not_mem_nil, or_false] at hl
    rcases hl with rfl | rfl | rfl
    · decide
    · simp [hd'.2]
    · decide
  · rw [List.filter_cons_of_neg (by decide), List.filter_cons_of_pos (by
      simp [List.isPrefixOf]), List.filter_cons_of_neg (by decide), List.filter_nil,
      ← decNat_decimal]
    simp

theorem redirect_wellFormed (path : Str) (h1 : c!"\r" ∉ path) (h2 : c!"\n" ∉ path) :
    WellFormed 302 (redirectBytes path) := by
  have e : redirectBytes path = render
      [b!"HTTP/1.0 302 Found", b!"Location: " ++ path ++ b!"/", b!"Content-Length: 0",
       b!"Connection: close"] [] := by
    simp [redirectBytes, render]
  have hp := parse_render
      [b!"HTTP/1.0 302 Found", b!"Location: " ++ path ++ b!"/", b!"Content-Length: 0",
       b!"Connection: close"] [] (by
    intro l hl
    simp only [List.mem_cons, List.not_mem_nil, or_false] at hl
    rcases hl with rfl | rfl | rfl | rfl
    · decide
    · simp [h1]
    · decide
    · decide)
  rw [← e] at hp
  refine ⟨_, _, _, hp, ?_, ?_, ?_⟩
  · decide
  · intro l hl
    simp only [List.mem_cons, List.not_mem_nil, or_false] at hl
    rcases hl with rfl | rfl | rfl
    · simp [h2]
    · decide
    · decide
  · rw [List.filter_cons_of_neg (by simp [List.isPrefixOf]), List.filter_cons_of_pos (by decide),
      List.filter_cons_of_neg (by decide), List.filter_nil]
    decide

theorem ok_lines (type body : Str) (ht : c!"\r" ∉ type) :
    parse (okBytes type body) = some ([b!"HTTP/1.0 200 OK", b!"Content-Type: " ++ type,
       b!"Content-Length: " ++ decNat body.length, b!"Connection: close"], body) := by
  have e : okBytes type body = render [b!"HTTP/1.0 200 OK", b!"Content-Type: " ++ type,
       b!"Content-Length: " ++ decNat body.length, b!"Connection: close"] body := by
    simp [okBytes, render]
  have hd := decNat_plain body.length
  rw [e]
  refine parse_render _ _ ?_
  intro l hl
  simp only [List.mem_cons, List.not_mem_nil, or_false] at hl
  rcases hl with rfl | rfl | rfl | rfl
  · decide
  · simp [ht]
  · simp [hd.1]
  · decide

theorem ok_wellFormed (type body : Str) (h1 : c!"\r" ∉ type) (h2 : c!"\n" ∉ type) :
    WellFormed 200 (okBytes type body) := by
  have hd := decNat_plain body.length
  refine ⟨_, _, _, ok_lines type body h1, by decide, ?_, ?_⟩
  · intro l hl
    simp only [List.mem_cons, List.not_mem_nil, or_false] at hl
    rcases hl with rfl | rfl | rfl
    · simp [h2]
    · simp [hd.2]
    · decide
  · rw [List.filter_cons_of_neg (by simp [List.isPrefixOf]), List.filter_cons_of_pos (by
      simp [List.isPrefixOf]), List.filter_cons_of_neg (by decide), List.filter_nil,
      ← decNat_decimal]

theorem guessType_plain (f : Str) : c!"\r" ∉ guessType f ∧ c!"\n" ∉ guessType f := by
  have ht : ∀ e ∈ contentTypes, c!"\r" ∉ e.1 ∧ c!"\n" ∉ e.1 := by decide +kernel
  unfold guessType
  split
  · decide
  · split
    · rename_i e he
      exact ht e (List.mem_of_find?_eq_some he)
    · decide

/-! ## Line ends in decoded paths -/

theorem hexVal_table : ∀ c : Byte, hexVal c = some 0 → c = c!"0" := by
  have h : ∀ n : Fin 256, hexVal (UInt8.ofFin n) = some 0 → UInt8.ofFin n = c!"0" := by decide +kernel
  exact fun c => h c.toFin

theorem hexVal_table' : ∀ c : Byte, (hexVal c = some 10 → c = c!"a" ∨ c = c!"A") ∧
    (hexVal c = some 13 → c = c!"d" ∨ c = c!"D") ∧ (∀ x, hexVal c = some x → x < 16) := by
  have h : ∀ n : Fin 256, (hexVal (UInt8.ofFin n) = some 10 →
      UInt8.ofFin n = c!"a" ∨ UInt8.ofFin n = c!"A") ∧
      (hexVal (UInt8.ofFin n) = some 13 → UInt8.ofFin n = c!"d" ∨ UInt8.ofFin n = c!"D") ∧
      (∀ x ∈ hexVal (UInt8.ofFin n), x < 16) := by decide +kernel
  exact fun c => h c.toFin

/-- The text has no line end, neither literally nor percent-encoded. -/
def NoLineEnd (t : Str) : Prop := c!"\r" ∉ t ∧ c!"\n" ∉ t ∧
  ∀ x ∈ [b!"%0a", b!"%0A", b!"%0d", b!"%0D"], ¬ x <:+: t

theorem NoLineEnd.infix {s t : Str} (h : NoLineEnd t) (hs : s <:+: t) : NoLineEnd s :=
  ⟨fun m => h.1 (hs.subset m), fun m => h.2.1 (hs.subset m), fun x hx hi => h.2.2 x hx (hi.trans hs)⟩

theorem ofNat_small (x y n : Nat) (hx : x < 16) (hy : y < 16) (hn : n < 16)
    (h : UInt8.ofNat (16 * x + y) = UInt8.ofNat n) : x = 0 ∧ y = n := by
  have := congrArg UInt8.toNat h
  simp only [UInt8.toNat_ofNat'] at this
  omega

theorem decode_noLineEnd (t p : Str) (h : NoLineEnd t) (hp : urldecode t = .ok p) :
    c!"\r" ∉ p ∧ c!"\n" ∉ p := by
  induction hn : t.length using Nat.strongRecOn generalizing t p with
  | ind n ih =>
    cases t with
    | nil => cases hp; simp
    | cons c r =>
      simp only [List.length_cons] at hn
      have hr : NoLineEnd r := h.infix ⟨[c], [], by simp⟩
      have step : ∀ c' : Byte, c' ≠ c!"\r" → c' ≠ c!"\n" → ∀ q, urldecode q = urldecode q →
          NoLineEnd q → q.length < n → (urldecode q).map (c' :: ·) = .ok p →
          c!"\r" ∉ p ∧ c!"\n" ∉ p := by
        intro c' h1 h2 q _ hq hl e
        cases hu : urldecode q with
        | ub => rw [hu] at e; cases e
        | ok p' =>
          rw [hu] at e
          cases e
          have := ih _ hl q p' hq hu rfl
          constructor
          · intro m
            rcases List.mem_cons.1 m with m | m
            · exact h1 m.symm
            · exact this.1 m
          · intro m
            rcases List.mem_cons.1 m with m | m
            · exact h2 m.symm
            · exact this.2 m
      have hc1 : c ≠ c!"\r" := fun e => h.1 (by simp [e])
      have hc2 : c ≠ c!"\n" := fun e => h.2.1 (by simp [e])
      by_cases h1 : c = c!"%"
      · subst h1
        by_cases ht : TwoHex r
        · obtain ⟨a, b, r', x, y, rfl, hx, hy⟩ := ht
          rw [C46.decode_escape a b r' x y hx hy] at hp
          simp only [List.length_cons] at hn
          have hr' : NoLineEnd r' := hr.infix ⟨[a, b], [], by simp⟩
          have bx := (hexVal_table' a).2.2 x hx
          have b_y := (hexVal_table' b).2.2 y hy
          refine step _ ?_ ?_ r' rfl hr' (by omega) hp
          · intro e
            obtain ⟨rfl, rfl⟩ := ofNat_small x y 13 bx b_y (by omega) e
            have ha := hexVal_table a hx
            subst ha
            rcases (hexVal_table' b).2.1 hy with rfl | rfl
            · exact h.2.2 b!"%0d" (by simp) ⟨[], r', by simp⟩
            · exact h.2.2 b!"%0D" (by simp) ⟨[], r', by simp⟩
          · intro e
            obtain ⟨rfl, rfl⟩ := ofNat_small x y 10 bx b_y (by omega) e
            have ha := hexVal_table a hx
            subst ha
            rcases (hexVal_table' b).1 hy with rfl | rfl
            · exact h.2.2 b!"%0a" (by simp) ⟨[], r', by simp⟩
            · exact h.2.2 b!"%0A" (by simp) ⟨[], r', by simp⟩
        · rw [C46.percent_kept r ht] at hp
          exact step _ (by decide) (by decide) r rfl hr (by omega) hp
      · by_cases h2 : c = c!"+"
        · subst h2
          rw [C46.decode_plus] at hp
          exact step _ (by decide) (by decide) r rfl hr (by omega) hp
        · rw [C46.decode_literal c r h1 h2] at hp
          exact step _ hc1 hc2 r rfl hr (by omega) hp

/-! ## The theorem -/

/-- The status codes of the server. -/
def statusCodes : List Nat := [200, 302, 400, 403, 404, 405, 500]

/-- Exactly one complete response. -/
def Answered (o : Outcome) : Prop :=
  ∃ status out file, o = .answer status out file ∧ status ∈ statusCodes ∧ WellFormed status out

theorem answered_fail (status : Nat) (msg : Str) (hs : status ∈ statusCodes) (h : c!"\r" ∉ msg) :
    Answered (fail status msg) := ⟨status, _, none, rfl, hs, error_wellFormed status msg h⟩

theorem answered_sendFile (env : Env) (hload : ∀ f, env.load f ≠ .hang) (path f : Str) (a : Bool)
    (h1 : c!"\r" ∉ path) (h2 : c!"\n" ∉ path) : Answered (sendFile env path f a) := by
  unfold sendFile
  split
  · exact answered_fail _ _ (by decide) (by decide)
  · split
    · exact ⟨302, _, none, rfl, by decide, redirect_wellFormed path h1 h2⟩
    · split
      · rename_i e; exact absurd e (hload f)
      · exact answered_fail _ _ (by decide) (by decide)
      · have := guessType_plain f
        exact ⟨200, _, _, rfl, by decide, ok_wellFormed _ _ this.1 this.2⟩

theorem answered_serve (env : Env) (hload : ∀ f, env.load f ≠ .hang) (docroot path : Str)
    (h1 : c!"\r" ∉ path) (h2 : c!"\n" ∉ path) : Answered (serve env docroot path) := by
  unfold serve
  repeat' split
  all_goals first
    | exact answered_fail _ _ (by decide) (by decide)
    | exact answered_sendFile env hload _ _ _ h1 h2

theorem mem_cstr {c : Byte} {s : Str} (h : c ∈ cstr s) : c ∈ s :=
  (List.takeWhile_prefix _).subset h

/-- Every request line that does not start with `GET` and two blanks, and has no
line end in it (percent-encoded ones included), gets exactly one complete response,
provided that reading a file returns. Missing: the three cases
`empty_target_violated`, `directory_index_violated` and `header_violated`. -/
theorem answered_partial (env : Env) (docroot line : Str) (hne : line ≠ [])
    (htarget : ¬ b!"GET  " <+: line) (hends : NoLineEnd line) (hload : ∀ f, env.load f ≠ .hang) :
    ∃ o, handle env docroot line = .ok o ∧ Answered o := by
  unfold handle
  rw [if_neg hne]
  have hj := C02.join_split line c!" " 3
  split
  · rename_i method target rest hs
    rw [hs] at hj
    split
    · exact ⟨_, rfl, answered_fail _ _ (by decide) (by decide)⟩
    · rename_i hm
      rw [Classical.not_not] at hm
      subst hm
      simp only [join] at hj
      have ht : target <:+: line := ⟨b!"GET ", b!" " ++ rest, by rw [← hj]; simp⟩
      have hj2 := C02.join_split target c!"?" 2
      split
      · rename_i hs2
        rw [hs2] at hj2
        have : target = [] := hj2.symm
        subst this
        exact absurd ⟨rest, by rw [← hj]; simp⟩ htarget
      · rename_i p more hs2
        have hp : p <:+: target := by
          rw [hs2] at hj2
          cases more with
          | nil => rw [join] at hj2; rw [hj2]; exact List.infix_rfl
          | cons q more => rw [join] at hj2; exact ⟨[], b!"?" ++ join b!"?" (q :: more), by rw [← hj2]; simp⟩
        obtain ⟨path, hpath⟩ := C46.in_bounds p
        rw [hpath]
        have := decode_noLineEnd p path ((hends.infix ht).infix hp) hpath
        exact ⟨_, rfl, answered_serve env hload docroot _ (fun m => this.1 (mem_cstr m))
          (fun m => this.2 (mem_cstr m))⟩
  · exact ⟨_, rfl, answered_fail _ _ (by decide) (by decide)⟩

/-- The body of a 200 answer is the contents of the file. -/
theorem body_is_file (env : Env) (docroot line out f : Str)
    (h : handle env docroot line = .ok (.answer 200 out (some f))) :
    ∃ lines s, env.load f = .bytes s ∧ parse out = some (lines, s) := by
  have send : ∀ path g a, sendFile env path g a = .answer 200 out (some f) →
      ∃ lines s, env.load f = .bytes s ∧ parse out = some (lines, s) := by
    intro path g a e
    unfold sendFile fail at e
    split at e
    · simp at e
    · split at e
      · simp at e
      · split at e <;> simp at e
        rename_i s hs
        obtain ⟨rfl, rfl⟩ := e
        exact ⟨_, s, hs, ok_lines _ _ (guessType_plain _).1⟩
  have srv : ∀ path, serve env docroot path = .answer 200 out (some f) →
      ∃ lines s, env.load f = .bytes s ∧ parse out = some (lines, s) := by
    intro path e
    unfold serve at e
    repeat' split at e
    all_goals first
      | exact send _ _ _ e
      | simp [fail] at e
  unfold handle at h
  split at h
  · simp at h
  · split at h
    · split at h
      · simp [fail] at h
      · split at h
        · simp at h
        · rename_i p _ _
          obtain ⟨path, hp⟩ := C46.in_bounds p
          rw [hp] at h
          simp only [Res.bind_ok, Res.pure_eq, Res.ok.injEq] at h
          exact srv _ h
    · simp [fail] at h

/-- A connection without a request line is closed. -/
theorem empty_closed (env : Env) (docroot : Str) : handle env docroot [] = .ok .closed := rfl

/-! ## Violations -/

/-- A site with one directory, which has an index. -/
def dirEnv (name : Str) (load : Load) : Env where
  realpath p := if p = b!"/www" then .ok b!"/www" else
    if p = b!"/www/" ++ name then .ok b!"/www/d" else .noent
  isDir p := some (p == b!"/www/d")
  exists_ p := p == b!"/www/d/index.html"
  load _ := load

/-- The request line `GET  HTTP/1.0` (empty target) makes the server pass a null
pointer to `strlen`. -/
theorem empty_target_violated (env : Env) (docroot : Str) :
    handle env docroot b!"GET  HTTP/1.0" = .ub := rfl

/-- An index "file" that is a directory is read forever (see C12). -/
theorem directory_index_violated :
    handle (dirEnv b!"/d/" .hang) b!"/www" b!"GET /d/ HTTP/1.0" = .ok .hang := by decide +kernel

/-- When a directory has a line end in its name, the redirection to it is not a
well-formed response: the client decides the text of header lines, and there
is no content length. -/
theorem header_violated : ∃ status out file,
    handle (dirEnv b!"/\r\n\r\nx" (.bytes [])) b!"/www" b!"GET /%0d%0a%0d%0ax HTTP/1.0" =
      .ok (.answer status out file) ∧ ¬ WellFormed status out := by
  refine ⟨302, redirectBytes b!"/\r\n\r\nx", none, by decide +kernel, ?_⟩
  rintro ⟨first, headers, body, hp, -, -, hf⟩
  have : parse (redirectBytes b!"/\r\n\r\nx") = some ([b!"HTTP/1.0 302 Found", b!"Location: /"],
      b!"x/\r\nContent-Length: 0\r\nConnection: close\r\n\r\n") := by decide +kernel
  rw [this] at hp
  cases hp
  revert hf
  rw [List.filter_cons_of_neg (by decide), List.filter_nil]
  simp

example : NoLineEnd b!"GET /a%20b?x=1 HTTP/1.0" ∧ ¬ b!"GET  " <+: b!"GET /a%20b?x=1 HTTP/1.0" := by
  refine ⟨⟨by decide, by decide, by decide⟩, by decide⟩

example : handle (dirEnv b!"/d" (.bytes b!"hi")) b!"/www" b!"GET /d HTTP/1.0" =
    .ok (.answer 302 (redirectBytes b!"/d") none) := by decide +kernel

example : handle (dirEnv b!"/d/" (.bytes b!"hi")) b!"/www" b!"GET /d/ HTTP/1.0" =
    .ok (.answer 200 (okBytes b!"text/html" b!"hi") (some b!"/www/d/index.html")) := by decide +kernel

end Blogc.C48
