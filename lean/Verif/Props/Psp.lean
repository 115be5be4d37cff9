import Verif.Props.EndToEnd
import Verif.Indenter
/-
Python sections in a template: from the source to the lines of the generated method.  Property C84.
-/
namespace Cheetah.Psp
open Cheetah.Driver Cheetah.Parser

/-! ### Specification -/

/-- The end of a line. -/
inductive Eol where
  | lf
  | cr
  | crlf
  deriving DecidableEq

/-- It in the source. -/
def Eol.src : Eol → Str
  | .lf => c!"\n"
  | .cr => c!"\r"
  | .crlf => c!"\r\n"

/-- Further lines of a section, each behind the end of the line before it. -/
def more : List (Eol × Str) → Str
  | [] => []
  | (e, l) :: ls => e.src ++ (l ++ more ls)

/-- Text without the end of a line. -/
def OneLine (l : Str) : Prop := ∀ c ∈ l, Indent.isLineSep c = false

/-- Lines, the last of them not empty. (A `\r` and a `\n` behind it are one end of a line.) -/
def Lines : Str → List (Eol × Str) → Prop
  | l, [] => OneLine l ∧ l ≠ []
  | l, (e, l') :: ls => OneLine l ∧ (e = .cr → (l' ++ more ls).head? ≠ some '\n') ∧ Lines l' ls

/-- A section of the source: `<%`, the code with space around it, `%>`. -/
def sec (pre s post : Str) : Str := c!"<%" ++ (pre ++ s ++ post) ++ c!"%>"

/-- The code of a section: not empty, space around it, and no `%>` in it but behind a backslash. -/
structure Sec (pre s post : Str) : Prop where
  left : ∀ c ∈ pre, isSpace c = true
  right : ∀ c ∈ post, isSpace c = true
  ne : s ≠ []
  first : ∀ c, s.head? = some c → isSpace c = false
  last : ∀ c, s.getLast? = some c → isSpace c = false
  inside : ∀ u v, pre ++ s ++ post = u ++ c!"%>" ++ v → u.getLast? = some '\\'
  bs : (pre ++ s ++ post).getLast? ≠ some '\\'

/-- A template of texts and Python sections. -/
inductive Page where
  /-- the end -/
  | done (t : Str)
  /-- text and `<%= e %>` -/
  | value (t pre e post : Str) (rest : Page)
  /-- text and `<% code %>` -/
  | code (t pre l : Str) (ls : List (Eol × Str)) (post : Str) (rest : Page)
  /-- text, `<% code %>` with code that ends in a colon, or in a dollar sign that is no part of it, and the template up to `<% end %>` -/
  | block (t pre l : Str) (ls : List (Eol × Str)) (dollar : Bool) (post : Str) (body : Page) (pre' w post' : Str) (rest : Page)

/-- Its source. -/
def Page.src : Page → Str
  | .done t => t
  | .value t pre e post rest => t ++ (sec pre ('=' :: e) post ++ rest.src)
  | .code t pre l ls post rest => t ++ (sec pre (l ++ more ls) post ++ rest.src)
  | .block t pre l ls dollar post body pre' w post' rest =>
    t ++ (sec pre (l ++ more ls ++ if dollar then c!"$" else []) post ++ (body.src ++ (sec pre' w post' ++ rest.src)))

/-- Text in front of a section. -/
def Before (t : Str) : Prop := Verbatim t ∧ ∀ c, t.getLast? = some c → c ∉ c!"#$<"

/-- Which templates are meant; `final` tells that nothing follows. -/
def Page.Ok : Bool → Page → Prop
  | final, .done t => Verbatim t ∧ (final = false → ∀ c, t.getLast? = some c → c ∉ c!"#$<")
  | final, .value t pre e post rest => Before t ∧ Sec pre ('=' :: e) post ∧ rest.Ok final
  | final, .code t pre l ls post rest => Before t ∧ Sec pre (l ++ more ls) post ∧ Lines l ls ∧ (l ++ more ls).head? ≠ some '=' ∧
    (l ++ more ls).map Char.toLower ≠ c!"end" ∧ (∀ c, (l ++ more ls).getLast? = some c → c ∉ c!":$") ∧ rest.Ok final
  | final, .block t pre l ls dollar post body pre' w post' rest => Before t ∧ Sec pre (l ++ more ls ++ if dollar then c!"$" else []) post ∧ Lines l ls ∧
    (l ++ more ls).head? ≠ some '=' ∧ (dollar = false → (l ++ more ls).getLast? = some ':') ∧ body.Ok false ∧
    Sec pre' w post' ∧ w.map Char.toLower = c!"end" ∧ rest.Ok final

/-- The line that writes a text. -/
def writes (printable : Char → Bool) (n : Nat) (t : Str) : List (Nat × Str) :=
  if t = [] then [] else [(n, c!"write(" ++ StrConst.literal printable (said t) ++ c!")")]

/-- The lines that it means, with their levels: every line of a section as it is written, the lines up to `<% end %>` one level deeper. -/
def Page.lines (printable : Char → Bool) : Nat → Page → List (Nat × Str)
  | n, .done t => writes printable n t
  | n, .value t _ e _ rest => writes printable n t ++ (if e = [] then [] else [(n, c!"write(_filter(" ++ e ++ c!"))")]) ++ rest.lines printable n
  | n, .code t _ l ls _ rest => writes printable n t ++ (l :: ls.map (·.2)).map (n, ·) ++ rest.lines printable n
  | n, .block t _ l ls _ _ body _ _ _ rest =>
    writes printable n t ++ (l :: ls.map (·.2)).map (n, ·) ++ body.lines printable (n + 1) ++ rest.lines printable n

/-! ### Lines -/

theorem split_char {c : Char} {s : Str} (h1 : c ≠ '\n') (h2 : c ≠ '\r') : Meth.splitLines (c :: s) = match Meth.splitLines s with
    | [] => [[c]]
    | l :: ls => (c :: l) :: ls := by
  rw [Meth.splitLines.eq_3 _ _ (by rintro s rfl; exact absurd rfl h2), if_neg (by simp [h1, h2])]
  rfl

theorem oneLine_char {c : Char} (h : Indent.isLineSep c = false) : c ≠ '\n' ∧ c ≠ '\r' :=
  ⟨by rintro rfl; exact absurd h (by decide), by rintro rfl; exact absurd h (by decide)⟩

theorem split_one : ∀ {l : Str}, OneLine l → l ≠ [] → Meth.splitLines l = [l]
  | [], _, h => absurd rfl h
  | [c], h, _ => by
    obtain ⟨h1, h2⟩ := oneLine_char (h c (by simp))
    rw [split_char h1 h2]
    rfl
  | c :: d :: l, h, _ => by
    obtain ⟨h1, h2⟩ := oneLine_char (h c (by simp))
    rw [split_char h1 h2, split_one (fun x hx => h x (List.mem_cons_of_mem _ hx)) (by simp)]

theorem split_before {R : List Str} {r : Str} (hr : Meth.splitLines r = [] :: R) : ∀ {l : Str}, OneLine l → Meth.splitLines (l ++ r) = l :: R
  | [], _ => hr
  | c :: l, h => by
    obtain ⟨h1, h2⟩ := oneLine_char (h c (by simp))
    rw [List.cons_append, split_char h1 h2, split_before hr (fun x hx => h x (List.mem_cons_of_mem _ hx))]

theorem split_eol {e : Eol} {s : Str} (h : e = .cr → s.head? ≠ some '\n') : Meth.splitLines (e.src ++ s) = [] :: Meth.splitLines s := by
  cases e with
  | lf =>
    show Meth.splitLines ('\n' :: s) = _
    rw [Meth.splitLines.eq_3 _ _ (by simp), if_pos (.inl rfl)]
  | crlf => rfl
  | cr =>
    show Meth.splitLines ('\r' :: s) = _
    rw [Meth.splitLines.eq_3 _ _ (by intro s' _ k; exact h rfl (by rw [k]; rfl)), if_pos (.inr rfl)]

theorem split_lines : ∀ {ls : List (Eol × Str)} {l : Str}, Lines l ls → Meth.splitLines (l ++ more ls) = l :: ls.map (·.2)
  | [], l, h => by rw [more, List.append_nil]; exact split_one h.1 h.2
  | (e, l') :: ls, l, h => by
    refine split_before ?_ h.1
    rw [more, split_eol h.2.1, split_lines h.2.2]
    rfl

/-! ### The compiler -/

variable {cf : Cf}

theorem commit_clean {m : Meth} (h : m.pending = []) : m.commit cf = m := by
  unfold Meth.commit
  rw [h]
  cases m
  simp_all

theorem chunk_clean {m : Meth} (h : m.pending = []) (t : Str) : m.chunk cf t = { m with chunks := m.chunks ++ [(m.lev, t)] } := by
  unfold Meth.chunk
  rw [commit_clean h]

theorem chunks_clean : ∀ (ls : List Str) {m : Meth}, m.pending = [] → m.chunks' cf ls = { m with chunks := m.chunks ++ ls.map (m.lev, ·) }
  | [], m, _ => by simp [Meth.chunks']
  | l :: ls, m, h => by
    have := chunks_clean ls (m := { m with chunks := m.chunks ++ [(m.lev, l)] }) h
    show (m.chunk cf l).chunks' cf ls = _
    rw [chunk_clean h, this]
    simp

theorem commit_text {m : Meth} (h : m.pending = []) (t : Str) :
    ({ m with pending := if said t = [] then [] else [said t] } : Meth).commit cf = { m with chunks := m.chunks ++ writes cf.printable m.lev t } := by
  unfold Meth.commit writes
  by_cases ht : t = []
  · have hs := said_nil.2 ht
    cases m
    simp_all
  · have hs := mt said_nil.1 ht
    simp [hs, ht, h]

/-- The commands of a template. -/
def Page.cmds : Page → List Cmd
  | .done t => textC (said t)
  | .value t _ e _ rest => textC (said t) ++ .psp ('=' :: e) :: rest.cmds
  | .code t _ l ls _ rest => textC (said t) ++ .psp (l ++ more ls) :: rest.cmds
  | .block t _ l ls dollar _ body _ w _ rest =>
    textC (said t) ++ .psp (l ++ more ls ++ if dollar then c!"$" else []) :: (body.cmds ++ .psp w :: rest.cmds)

theorem steps_text {c : CC} {m : Meth} {ms : List Meth} (hc : c.active = m :: ms) (h : m.pending = []) (t : Str) :
    CC.steps cf (textC (said t)) c = .ok { c with active := { m with pending := if said t = [] then [] else [said t] } :: ms } := by
  unfold textC
  split_ifs with ht
  · rw [CC.steps]
    cases c; cases m
    simp_all
  · simp [CC.steps, CC.step, CC.top, CC.onTop, hc, bind, Except.bind, Meth.text, h]

theorem steps_psp {c : CC} {m m' : Meth} {ms : List Meth} {s : Str} (hc : c.active = m :: ms) (h : m.psp cf Meth.splitLines CC.lower s = .ok m') (ks : List Cmd) :
    CC.steps cf (.psp s :: ks) c = CC.steps cf ks { c with active := m' :: ms } := by
  rw [CC.steps, CC.step, CC.onTop, hc]
  simp only [h, bind, Except.bind]

theorem psp_value {m : Meth} {e : Str} : m.psp cf Meth.splitLines CC.lower ('=' :: e) = .ok (if e = [] then m.commit cf else (m.commit cf).chunk cf (c!"write(_filter(" ++ e ++ c!"))")) := by
  unfold Meth.psp
  rfl

theorem psp_other {m : Meth} {s : Str} (h1 : s.head? ≠ some '=') (h2 : s ≠ []) : m.psp cf Meth.splitLines CC.lower s =
    if CC.lower s = c!"end" then (m.commit cf).dedent
    else if s.getLast? = some '$' then .ok ((m.commit cf).chunks' cf (Meth.splitLines s.dropLast)).indent
    else if s.getLast? = some ':' then .ok ((m.commit cf).chunks' cf (Meth.splitLines s)).indent
    else .ok ((m.commit cf).chunks' cf (Meth.splitLines s)) := by
  unfold Meth.psp
  dsimp only
  split
  · exact absurd rfl h2
  · exact absurd rfl h1
  · rfl

theorem psp_code {m : Meth} {l : Str} {ls : List (Eol × Str)} (hl : Lines l ls) (h1 : (l ++ more ls).head? ≠ some '=') (h2 : l ++ more ls ≠ [])
    (h3 : (l ++ more ls).map Char.toLower ≠ c!"end") (h4 : ∀ c, (l ++ more ls).getLast? = some c → c ∉ c!":$") :
    m.psp cf Meth.splitLines CC.lower (l ++ more ls) = .ok ((m.commit cf).chunks' cf (l :: ls.map (·.2))) := by
  rw [psp_other h1 h2, if_neg (by exact h3), if_neg (fun k => h4 _ k (by decide)), if_neg (fun k => h4 _ k (by decide)), split_lines hl]

theorem lower_end {s : Str} {c : Char} (h : s.getLast? = some c) (hc : c = ':' ∨ c = '$') : CC.lower s ≠ c!"end" := by
  intro k
  have := congrArg List.getLast? k
  rw [CC.lower, List.getLast?_map, h] at this
  rcases hc with rfl | rfl <;> exact absurd this (by decide)

theorem psp_open {m : Meth} {l : Str} {ls : List (Eol × Str)} {dollar : Bool} (hl : Lines l ls) (h1 : (l ++ more ls).head? ≠ some '=') (h2 : l ++ more ls ≠ [])
    (h3 : dollar = false → (l ++ more ls).getLast? = some ':') :
    m.psp cf Meth.splitLines CC.lower (l ++ more ls ++ if dollar then c!"$" else []) = .ok ((m.commit cf).chunks' cf (l :: ls.map (·.2))).indent := by
  cases dollar with
  | false =>
    have h3 := h3 rfl
    simp only [Bool.false_eq_true, if_false, List.append_nil]
    rw [psp_other h1 h2, if_neg (lower_end h3 (.inl rfl)), if_neg (by rw [h3]; decide), if_pos h3, split_lines hl]
  | true =>
    have hg : (l ++ more ls ++ c!"$").getLast? = some '$' := List.getLast?_concat
    simp only [if_true]
    rw [psp_other (by cases hx : l ++ more ls with
        | nil => exact absurd hx h2
        | cons c r => rw [hx] at h1; exact h1) (by simp), if_neg (lower_end hg (.inr rfl)), if_pos hg, show (l ++ more ls ++ c!"$").dropLast = l ++ more ls from List.dropLast_concat, split_lines hl]

theorem lines_ne : ∀ {ls : List (Eol × Str)} {l : Str}, Lines l ls → l ++ more ls ≠ []
  | [], l, h => by rw [more, List.append_nil]; exact h.2
  | (e, l') :: ls, l, _ => by cases e <;> simp [more, Eol.src]

/-- Running a template. -/
theorem Page.run : ∀ (p : Page) {final : Bool}, p.Ok final → ∀ {c : CC} {m : Meth} {ms : List Meth}, c.active = m :: ms → m.pending = [] →
    ∃ m', CC.steps cf p.cmds c = .ok { c with active := m' :: ms } ∧ m'.commit cf = { m with chunks := m.chunks ++ p.lines cf.printable m.lev }
  | .done t, _, _, c, m, ms, hc, hm => ⟨_, steps_text hc hm t, commit_text hm t⟩
  | .value t pre e post rest, _, hok, c, m, ms, hc, hm => by
    obtain ⟨m', h1, h2⟩ := rest.run hok.2.2 (c := { c with active := { m with chunks := m.chunks ++ writes cf.printable m.lev t ++
      (if e = [] then [] else [(m.lev, c!"write(_filter(" ++ e ++ c!"))")]) } :: ms }) rfl hm
    refine ⟨m', ?_, ?_⟩
    · rw [Page.cmds, steps_append, steps_text hc hm t]
      show CC.steps cf _ _ = _
      rw [steps_psp rfl (m' := { m with chunks := m.chunks ++ writes cf.printable m.lev t ++ (if e = [] then [] else [(m.lev, c!"write(_filter(" ++ e ++ c!"))")]) })]
      · exact h1
      · rw [psp_value, commit_text hm t]
        split_ifs
        · simp
        · rw [chunk_clean (m := { m with chunks := m.chunks ++ writes cf.printable m.lev t }) hm]
    · rw [h2]; simp [Page.lines]
  | .code t pre l ls post rest, _, hok, c, m, ms, hc, hm => by
    obtain ⟨_, _, o1, o2, o3, o4, o5⟩ := hok
    obtain ⟨m', h1, h2⟩ := rest.run o5 (c := { c with active := { m with chunks := m.chunks ++ writes cf.printable m.lev t ++ (l :: ls.map (·.2)).map (m.lev, ·) } :: ms }) rfl hm
    refine ⟨m', ?_, ?_⟩
    · rw [Page.cmds, steps_append, steps_text hc hm t]
      show CC.steps cf _ _ = _
      rw [steps_psp rfl (psp_code o1 o2 (lines_ne o1) o3 o4), commit_text hm t, chunks_clean _ (m := { m with chunks := m.chunks ++ writes cf.printable m.lev t }) hm]
      exact h1
    · rw [h2]; simp [Page.lines]
  | .block t pre l ls dollar post body pre' w post' rest, _, hok, c, m, ms, hc, hm => by
    obtain ⟨_, _, o1, o2, o3, o4, o5, o6, o7⟩ := hok
    obtain ⟨m1, h1, h2⟩ := body.run o4 (c := { c with active := { m with chunks := m.chunks ++ writes cf.printable m.lev t ++ (l :: ls.map (·.2)).map (m.lev, ·), lev := m.lev + 1 } :: ms }) rfl hm
    obtain ⟨m', h3, h4⟩ := rest.run o7 (c := { c with active := { m with chunks := m.chunks ++ writes cf.printable m.lev t ++ (l :: ls.map (·.2)).map (m.lev, ·) ++ body.lines cf.printable (m.lev + 1) } :: ms }) rfl hm
    refine ⟨m', ?_, ?_⟩
    · rw [Page.cmds, steps_append, steps_text hc hm t]
      show CC.steps cf _ _ = _
      rw [steps_psp rfl (psp_open o1 o2 (lines_ne o1) o3), commit_text hm t, chunks_clean _ (m := { m with chunks := m.chunks ++ writes cf.printable m.lev t }) hm, steps_append]
      erw [h1]
      show CC.steps cf _ _ = _
      rw [steps_psp rfl (m' := { m with chunks := m.chunks ++ writes cf.printable m.lev t ++ (l :: ls.map (·.2)).map (m.lev, ·) ++ body.lines cf.printable (m.lev + 1) })]
      · exact h3
      · have hw : w.head? ≠ some '=' := by
          cases w with
          | nil => simp
          | cons a w =>
            rintro ⟨⟩
            injection o6 with o6 _
            exact absurd o6 (by decide)
        rw [psp_other hw o5.ne, if_pos (by exact o6), h2, Meth.dedent]
        simp
    · rw [h4]; simp [Page.lines]

/-! ### The parser -/

variable {h : Env}

theorem scan_end {x : Cx} (hc : x.cfg.pspEnd = c!"%>") : ∀ (w a b : Str) (n : Nat), x.src = a ++ (w ++ c!"%>" ++ b) → (∀ u v, w = u ++ c!"%>" ++ v → (a ++ u).getLast? = some '\\') →
    (a ++ w).getLast? ≠ some '\\' → w.length + 1 ≤ n → x.pspScan n a.length = (a ++ w).length
  | [], a, b, n, hs, _, hl, hn => by
    obtain ⟨n, rfl⟩ : ∃ k, n = k + 1 := ⟨n - 1, by simp at hn; omega⟩
    rw [Cx.pspScan, hc, if_pos]
    · simp
    · rw [List.append_nil] at hl
      exact (matchTok_iff _ hs).2 ⟨hl, b, by simp⟩
  | c :: w, a, b, n, hs, hi, hl, hn => by
    obtain ⟨n, rfl⟩ : ∃ k, n = k + 1 := ⟨n - 1, by simp at hn; omega⟩
    rw [Cx.pspScan, hc, if_neg]
    · have := scan_end hc w (a ++ [c]) b n (by rw [hs]; simp) (fun u v k => by
        have := hi (c :: u) v (by rw [k]; rfl)
        simpa using this) (by simpa using hl) (by simp at hn; omega)
      simpa using this
    · intro k
      obtain ⟨k1, r, k2⟩ := (matchTok_iff _ hs).1 k
      cases w with
      | nil =>
        simp only [List.cons_append, List.nil_append, List.cons.injEq] at k2
        exact absurd k2.2.1 (by decide)
      | cons d w =>
        simp only [List.cons_append, List.nil_append, List.cons.injEq] at k2
        obtain ⟨rfl, rfl, _⟩ := k2
        exact k1 (by simpa using hi [] w rfl)

theorem tag_psp {x : Cx} {a r : Str} (hx : Std x) (hs : x.src = a ++ (c!"<%" ++ r)) (ha : NoBs a) : x.tagAt a.length = .ok (some .psp) := by
  obtain ⟨ns, hcfg⟩ := id hx.cfg
  have h0 : x.src = a ++ '<' :: ('%' :: r) := hs
  have h1 : x.matchTok x.cfg.com a.length = none := matchTok_none h0 (by rw [hcfg]; simp [Cfg.std]) (by rw [hcfg]; simp [Cfg.std])
  have h2 : x.matchTok x.cfg.mlStart a.length = none := matchTok_none h0 (by rw [hcfg]; simp [Cfg.std]) (by rw [hcfg]; simp [Cfg.std])
  have h3 : (x.matchTok x.cfg.psp a.length).isSome = true := (matchTok_iff _ hs).2 ⟨ha, r, by rw [hcfg]; rfl⟩
  obtain ⟨v1, v2⟩ := novar_at (x := x) h0 (by rw [hcfg]; rfl) (by decide)
  obtain ⟨o, d1, d2⟩ := matchDirective_spec (x := x) (by rw [hcfg]; rfl) (by rw [hcfg]; rfl) hx.bp h0
  have ho : o = none := by
    cases o with
    | none => rfl
    | some n =>
      obtain ⟨_, r, hr, _⟩ := (d2 n).1 rfl
      injection hr with hr _
      exact absurd hr (by decide)
  have v3 : x.matchExprStart a.length = false := by unfold Cx.matchExprStart; rw [rest_after h0, hcfg]; simp [Cfg.std, stripPrefix?]
  unfold Cx.tagAt
  rw [h1, h2, v2, v3, d1, ho]
  simp [h3, bind, Except.bind]

theorem strip_pad {pre s post : Str} (h1 : ∀ c ∈ pre, isSpace c = true) (h2 : ∀ c ∈ post, isSpace c = true) (hne : s ≠ []) (h3 : ∀ c, s.head? = some c → isSpace c = false)
    (h4 : ∀ c, s.getLast? = some c → isSpace c = false) : strip (pre ++ s ++ post) = s := by
  have hl : lstrip (pre ++ s ++ post) = s ++ post := by
    rw [lstrip, List.append_assoc, List.dropWhile_append_of_pos h1]
    cases s with
    | nil => exact absurd rfl hne
    | cons c s => rw [List.cons_append, List.dropWhile_cons, if_neg (by rw [h3 c rfl]; simp)]
  have hp : rstrip post = [] := by
    clear h1 h3 h4 hl hne
    induction post with
    | nil => rfl
    | cons c t ih => rw [rstrip, ih fun d hd => h2 d (List.mem_cons_of_mem _ hd), if_pos (h2 c (by simp))]
  have hr : rstrip (s ++ post) = rstrip s := by
    clear h1 h3 h4 hl hne
    induction s with
    | nil => exact hp
    | cons c s ih => rw [List.cons_append, rstrip, ih, rstrip]
  rw [strip, hl, hr, rstrip_eq_self h4]

/-- A section. -/
theorem reach_psp (hp : Tame h) {a b pre w post : Str} {s : PS} (hs : h.src = a ++ (sec pre w post ++ b)) (hpos : s.pos = a.length) (hbp : s.bp = h.src.length)
    (ha : NoBs a) (hw : Sec pre w post) : Reaches h s (s.emit [.psp w] (a ++ sec pre w post).length) := by
  have hx := hp.toPlain.std
  obtain ⟨ns, hcfg⟩ := id hx.cfg
  have hst : strip (pre ++ w ++ post) = w := strip_pad hw.left hw.right hw.ne hw.first hw.last
  have hi := hw.inside
  have hb := hw.bs
  unfold sec at hs ⊢
  generalize pre ++ w ++ post = W at hs hst hi hb
  have hen : h.disabled c!"psp" = false := hp.enabled _
  have hlen := congrArg List.length hs
  simp only [List.length_append, List.length_cons, List.length_nil] at hlen
  have heat : (h.px h.src.length).eatPsp a.length = .ok ([.psp w], (a ++ (c!"<%" ++ W ++ c!"%>")).length) := by
    generalize hX : h.px h.src.length = x at hx hcfg
    have hsx : x.src = a ++ c!"<%" ++ (W ++ c!"%>" ++ b) := by rw [← hX]; show h.src = _; rw [hs]; simp
    have hbx : x.bp = a.length + (2 + W.length + 2 + b.length) := by rw [← hX]; show h.src.length = _; omega
    have k1 : x.matchTok x.cfg.psp a.length = some (a.length + 2) := by
      rw [matchTok_at x.toCx x.cfg.psp a (W ++ c!"%>" ++ b) (by rw [hcfg]; exact hsx) ha, hcfg]; rfl
    have hab : (a ++ c!"<%").length = a.length + 2 := by simp
    have k2 : x.pspScan (x.bp - (a.length + 2)) (a.length + 2) = a.length + 2 + W.length := by
      have := scan_end (x := x.toCx) (by rw [hcfg]; rfl) W (a ++ c!"<%") b (x.bp - (a.length + 2)) hsx (fun u v k => by
        have := hi u v k
        rw [List.getLast?_append, this]; rfl) (by
        rw [List.getLast?_append]
        cases hW : W.getLast? with
        | none => simp
        | some c => rw [hW] at hb; simpa using hb) (by omega)
      rw [hab] at this
      rw [this]
      simp; omega
    have k3 : x.matchTok x.cfg.pspEnd (a.length + 2 + W.length) = some (a.length + 2 + W.length + 2) := by
      have := matchTok_at x.toCx x.cfg.pspEnd (a ++ c!"<%" ++ W) b (by rw [hsx, hcfg]; simp [Cfg.std]) (by
        rw [List.getLast?_append]
        cases hW : W.getLast? with
        | none => simp
        | some c => rw [hW] at hb; simpa using hb)
      have e1 : (a ++ c!"<%" ++ W).length = a.length + 2 + W.length := by simp; omega
      rw [e1, show x.cfg.pspEnd.length = 2 by rw [hcfg]; rfl] at this
      exact this
    have k4 : x.slice (a.length + 2) (a.length + 2 + W.length) = W := by
      unfold Cx.slice
      rw [hsx]
      have e1 : a.length + 2 + W.length = (a ++ c!"<%" ++ W).length := by simp; omega
      rw [show a ++ c!"<%" ++ (W ++ c!"%>" ++ b) = (a ++ c!"<%" ++ W) ++ (c!"%>" ++ b) by simp, e1, List.take_left' rfl, ← hab, List.drop_left' rfl]
    unfold Cx.eatPsp Cx.goto
    rw [k1]
    simp only [bind, Except.bind]
    rw [if_pos (by omega)]
    simp only [k2, k3]
    rw [if_pos (by omega)]
    simp only [k4, hst]
    simp
    omega
  have htag := tag_psp hx (a := a) (r := W ++ c!"%>" ++ b) (by show h.src = _; rw [hs]; simp) ha
  intro k hk
  obtain ⟨k, rfl⟩ : ∃ j, k = j + 1 := ⟨k - 1, by omega⟩
  refine ⟨k, ?_, ?_⟩
  · simp only [PS.emit, List.length_append, List.length_cons, List.length_nil]; omega
  · rw [Env.loop, hbp, hpos, if_neg (by omega)]
    simp only [htag, bind, Except.bind, reduceCtorEq, if_false, Px.simple, heat, Option.some.injEq, hen, Bool.false_eq_true]

theorem emit_emit (s : PS) (a b : List Cmd) (p q : Nat) : (s.emit a p).emit b q = s.emit (a ++ b) q := by simp [PS.emit]

theorem sec_noBs (a pre s post : Str) : NoBs (a ++ sec pre s post) := by
  unfold sec
  rw [show a ++ (c!"<%" ++ (pre ++ s ++ post) ++ c!"%>") = (a ++ (c!"<%" ++ (pre ++ s ++ post) ++ c!"%")) ++ ['>'] by simp]
  exact NoBs.snoc _ (by decide)

/-- Text and a section. -/
theorem reach_both (hp : Tame h) {a b t pre w post : Str} {s : PS} (hs : h.src = a ++ (t ++ (sec pre w post ++ b))) (hpos : s.pos = a.length) (hbp : s.bp = h.src.length)
    (ha : NoBs a) (ht : Before t) (hw : Sec pre w post) : Reaches h s (s.emit (textC (said t) ++ [.psp w]) (a ++ t ++ sec pre w post).length) := by
  have hat : NoBs (a ++ t) := ha.append ht.1.noBs
  have r1 := reach_text hp (a := a) (t := t) (b := sec pre w post ++ b) (s := s) (by rw [hs]; simp) hpos hbp ht.1
    (.inr (by unfold sec; simpa using TagStart.psp (names := stdNames) (a ++ t) (pre ++ w ++ post ++ c!"%>" ++ b) hat)) (fun c hc hm => absurd hm (ht.2 c hc))
  have r2 := reach_psp hp (a := a ++ t) (b := b) (s := s.emit (textC (said t)) (a ++ t).length) (by rw [hs]; simp) rfl hbp hat hw
  rw [emit_emit] at r2
  exact r1.trans r2

theorem Page.noBs : ∀ {p : Page} {final : Bool}, p.Ok final → NoBs p.src
  | .done t, _, hok => hok.1.noBs
  | .value t pre e post rest, _, hok => hok.1.1.noBs.append (by
    have := (sec_noBs [] pre ('=' :: e) post).append (Page.noBs hok.2.2)
    simpa using this)
  | .code t pre l ls post rest, _, hok => hok.1.1.noBs.append (by
    have := (sec_noBs [] pre (l ++ more ls) post).append (Page.noBs hok.2.2.2.2.2.2)
    simpa using this)
  | .block t pre l ls dollar post body pre' w post' rest, _, hok => hok.1.1.noBs.append (by
    have h1 := (sec_noBs [] pre (l ++ more ls ++ if dollar then c!"$" else []) post).append (Page.noBs hok.2.2.2.2.2.1)
    have h2 := (sec_noBs [] pre' w post').append (Page.noBs hok.2.2.2.2.2.2.2.2)
    have := h1.append h2
    simpa using this)

theorem Page.reach (hp : Tame h) : ∀ (p : Page) {final : Bool} {a b : Str} {s : PS}, p.Ok final → h.src = a ++ (p.src ++ b) → (final = true → b = []) →
    (final = false → ∃ r, b = c!"<%" ++ r) → s.pos = a.length → s.bp = h.src.length → NoBs a → Reaches h s (s.emit p.cmds (a ++ p.src).length)
  | .done t, final, a, b, s, hok, hs, h1, h2, hpos, hbp, ha => by
    refine reach_text hp (a := a) (t := t) (b := b) (by rw [hs]; simp [Page.src]) hpos hbp hok.1 ?_ ?_
    · cases final with
      | true => exact .inl (h1 rfl)
      | false => obtain ⟨r, rfl⟩ := h2 rfl; exact .inr (.psp _ _ (ha.append hok.1.noBs))
    · intro c hc hm
      cases final with
      | true => exact .inl (h1 rfl)
      | false => exact absurd hm (hok.2 rfl c hc)
  | .value t pre e post rest, final, a, b, s, hok, hs, h1, h2, hpos, hbp, ha => by
    obtain ⟨o1, o2, o3⟩ := hok
    have r1 := reach_both hp (a := a) (t := t) (pre := pre) (w := '=' :: e) (post := post) (b := rest.src ++ b) (s := s) (by rw [hs, Page.src]; simp) hpos hbp ha o1 o2
    have r2 := rest.reach hp (a := a ++ t ++ sec pre ('=' :: e) post) (b := b) (s := s.emit (textC (said t) ++ [.psp ('=' :: e)]) (a ++ t ++ sec pre ('=' :: e) post).length) o3
      (by rw [hs, Page.src]; simp) h1 h2 rfl hbp (sec_noBs _ _ _ _)
    rw [emit_emit] at r2
    simpa [Page.cmds, Page.src] using r1.trans r2
  | .code t pre l ls post rest, final, a, b, s, hok, hs, h1, h2, hpos, hbp, ha => by
    obtain ⟨o1, o2, _, _, _, _, o3⟩ := hok
    have r1 := reach_both hp (a := a) (t := t) (pre := pre) (w := l ++ more ls) (post := post) (b := rest.src ++ b) (s := s) (by rw [hs, Page.src]; simp) hpos hbp ha o1 o2
    have r2 := rest.reach hp (a := a ++ t ++ sec pre (l ++ more ls) post) (b := b) (s := s.emit (textC (said t) ++ [.psp (l ++ more ls)]) (a ++ t ++ sec pre (l ++ more ls) post).length) o3
      (by rw [hs, Page.src]; simp) h1 h2 rfl hbp (sec_noBs _ _ _ _)
    rw [emit_emit] at r2
    simpa [Page.cmds, Page.src] using r1.trans r2
  | .block t pre l ls dollar post body pre' w post' rest, final, a, b, s, hok, hs, h1, h2, hpos, hbp, ha => by
    obtain ⟨o1, o2, _, _, _, o4, o5, _, o7⟩ := hok
    simp only [Page.src] at hs
    generalize hW : (l ++ more ls ++ if dollar then c!"$" else []) = W at o2 hs
    have r1 := reach_both hp (a := a) (t := t) (pre := pre) (w := W) (post := post) (b := body.src ++ (sec pre' w post' ++ rest.src) ++ b) (s := s) (by rw [hs]; simp) hpos hbp ha o1 o2
    have r2 := body.reach hp (a := a ++ t ++ sec pre W post) (b := sec pre' w post' ++ rest.src ++ b) (s := s.emit (textC (said t) ++ [.psp W]) (a ++ t ++ sec pre W post).length) o4
      (by rw [hs]; simp) (by simp) (fun _ => ⟨pre' ++ w ++ post' ++ c!"%>" ++ rest.src ++ b, by simp [sec]⟩) rfl hbp (sec_noBs _ _ _ _)
    rw [emit_emit] at r2
    have hbn : NoBs (a ++ t ++ sec pre W post ++ body.src) := (sec_noBs _ _ _ _).append (Page.noBs o4)
    have r3 := reach_psp hp (a := a ++ t ++ sec pre W post ++ body.src) (pre := pre') (w := w) (post := post') (b := rest.src ++ b)
      (s := s.emit (textC (said t) ++ [.psp W] ++ body.cmds) (a ++ t ++ sec pre W post ++ body.src).length) (by rw [hs]; simp) rfl hbp hbn o5
    rw [emit_emit] at r3
    have r4 := rest.reach hp (a := a ++ t ++ sec pre W post ++ body.src ++ sec pre' w post') (b := b)
      (s := s.emit (textC (said t) ++ [.psp W] ++ body.cmds ++ [.psp w]) (a ++ t ++ sec pre W post ++ body.src ++ sec pre' w post').length) o7 (by rw [hs]; simp) h1 h2 rfl hbp (sec_noBs _ _ _ _)
    rw [emit_emit] at r4
    simpa [Page.cmds, Page.src, hW] using ((r1.trans r2).trans r3).trans r4

/-! ### The property -/

/-- C84: the lines of the method made from a template of texts and Python sections are, between those that set it up and the one that returns
the text, those that the template means: every line of a section as it is written, at the level of the blocks around it. -/
theorem C84_page (hp : Tame h) (hu : EndToEnd.Usual cf) (st : GenVar.Settings) (p : Page) (hok : p.Ok true) (hs : h.src = p.src) :
    ∃ cmds cc M, h.parse st = .ok cmds ∧ CC.compile cf cmds = .ok cc ∧ cc.finished = [M] ∧ cc.active = [] ∧ M.name = c!"respond" ∧
      M.args = [(c!"self", none), (c!"trans", some c!"None")] ∧
      M.chunks = EndToEnd.prologue cf.initLev ++ p.lines cf.printable cf.initLev ++ [(cf.initLev, c!"return _dummyTrans and trans.response().getvalue() or \"\"")] := by
  let m0 : Meth := { uid := 0, name := cf.mainName, lev := cf.initLev }
  obtain ⟨m', h1, h2⟩ := p.run (cf := cf) hok (c := CC.start cf) (m := m0) (ms := []) rfl rfl
  have hcommit : m'.cache = [] ∧ m'.calls = [] := by
    have e1 : (m'.commit cf).cache = m'.cache ∧ (m'.commit cf).calls = m'.calls := by unfold Meth.commit; split_ifs <;> simp
    rw [h2] at e1
    exact ⟨e1.1.symm, e1.2.symm⟩
  obtain ⟨s1, s2, s3⟩ := EndToEnd.sealed_main hu (m := m'.commit cf) (by rw [h2]; exact hu.main) (by rw [h2]) (by rw [h2]) (by rw [h2])
  refine ⟨p.cmds, { CC.start cf with active := [], finished := [(m'.commit cf).sealed cf] }, (m'.commit cf).sealed cf, ?_, ?_, rfl, rfl, s1, s2, ?_⟩
  · have r := p.reach hp (a := []) (b := []) (s := { pos := 0, bp := h.src.length, st := st }) hok (by simp [hs]) (fun _ => rfl) (by simp) rfl rfl (by unfold NoBs; simp)
    obtain ⟨k, hk, he⟩ := r (3 * h.src.length + 4) (by show _ ≤ _ + 0; omega)
    have hpos : (PS.emit { pos := 0, bp := h.src.length, st := st } p.cmds ([] ++ p.src).length).pos = h.src.length := by simp [PS.emit, hs]
    rw [hpos] at hk
    obtain ⟨k, rfl⟩ : ∃ j, k = j + 1 := ⟨k - 1, by omega⟩
    unfold Env.parse
    rw [he, Env.loop, if_pos (by simp [PS.emit, hs])]
    simp [PS.emit, bind, Except.bind]
  · unfold CC.compile
    rw [h1]
    simp only [bind, Except.bind, CC.finishAll, CC.swallow]
    rw [Driver.finish_ok hcommit.1 hcommit.2]
    rfl
  · rw [s3, h2]
    simp [m0, Meth.stopLine]

/-- A section whose lines are all written with the same indentation means a first line without it and others with it, which Python
refuses. -/
theorem C84_indented_code_counterexample (printable : Char → Bool) (n : Nat) (i a b : Str) :
    (Page.code [] (c!"\n" ++ i) a [(.lf, i ++ b)] c!"\n" (.done [])).src = c!"<%\n" ++ i ++ a ++ c!"\n" ++ i ++ b ++ c!"\n%>" ∧
    (Page.code [] (c!"\n" ++ i) a [(.lf, i ++ b)] c!"\n" (.done [])).lines printable n = [(n, a), (n, i ++ b)] := by
  constructor
  · simp [Page.src, sec, more, Eol.src]
  · simp [Page.lines, writes]

/-- A `%>` in a string ends the section. -/
theorem C84_end_in_string_counterexample : (EndToEnd.methodsOf c!"<%= '%>' %>").map (fun ms => ms.map fun m => m.2.2.drop 9) =
    some [[(2, c!"write(_filter( '))"), (2, c!"write(\"\"\"' %>\"\"\")"), (2, Meth.stopLine)]] := by decide +kernel

/-! ### Cases -/

/-- `<% for i in x: %>`, a value, two lines of code behind a `\r`, `<% END %>`. -/
def demoPage : Page :=
  .block c!"a: " c!" " c!"for i in x:" [] false c!" "
    (.value c!"<b>" [] c!" i" c!" " (.code c!"</b>" c!"\n" c!"y = 1" [(.cr, c!"z = y"), (.crlf, []), (.lf, c!"z = 2")] c!"\n" (.done c!", ")))
    c!" " c!"END" [] (.block [] [] c!"if 1: # one" [] true [] (.done c!"!\n") [] c!"end" c!"\t" (.done c!"."))

example : demoPage.src = c!"a: <% for i in x: %><b><%= i %></b><%\ny = 1\rz = y\r\n\nz = 2\n%>, <% END%><%if 1: # one$%>!\n<%end\t%>." := by decide
theorem sec_plain {pre s post : Str} (h1 : pre.all isSpace = true) (h2 : post.all isSpace = true) (h3 : s ≠ []) (h4 : (s.head?.all fun c => !isSpace c) = true)
    (h5 : (s.getLast?.all fun c => !isSpace c) = true) (h6 : '%' ∉ pre ++ s ++ post) (h7 : (pre ++ s ++ post).getLast? ≠ some '\\') : Sec pre s post :=
  ⟨fun c hc => List.all_eq_true.1 h1 c hc, fun c hc => List.all_eq_true.1 h2 c hc, h3, fun c hc => by rw [hc] at h4; simpa using h4, fun c hc => by rw [hc] at h5; simpa using h5,
    fun u v e => absurd (by rw [e]; simp) h6, h7⟩

theorem demo_ok : demoPage.Ok true := by
  have v : ∀ t : Str, (t.all fun c => !decide (c ∈ c!"#$<\\")) = true → Verbatim t := fun t ht => Verbatim.chars fun c hc => by simpa using List.all_eq_true.1 ht c hc
  have b : ∀ t : Str, (t.all fun c => !decide (c ∈ c!"#$<\\")) = true → Before t := fun t ht => ⟨v t ht, fun c hc hm => by
    have := List.all_eq_true.1 ht c (List.mem_of_getLast? hc)
    simp at this hm
    tauto⟩
  refine ⟨b _ rfl, sec_plain (by decide +kernel) (by decide +kernel) (by decide) (by decide +kernel) (by decide +kernel) (by decide) (by decide), ⟨by unfold OneLine; decide, by decide⟩, by decide, by decide,
    ⟨⟨.angle _ _ (by decide) (v _ rfl), by decide⟩, sec_plain (by decide +kernel) (by decide +kernel) (by decide) (by decide +kernel) (by decide +kernel) (by decide) (by decide),
      ⟨.angle _ _ (by decide) (v _ rfl), by decide⟩, sec_plain (by decide +kernel) (by decide +kernel) (by decide) (by decide +kernel) (by decide +kernel) (by decide) (by decide),
      ⟨by unfold OneLine; decide, by decide, by unfold OneLine; decide, by decide, by unfold OneLine; decide, by decide, by unfold OneLine; decide, by decide⟩, by decide, by decide, by decide, v _ rfl, by decide⟩,
    sec_plain (by decide +kernel) (by decide +kernel) (by decide) (by decide +kernel) (by decide +kernel) (by decide) (by decide), by decide,
    b _ rfl, sec_plain (by decide +kernel) (by decide +kernel) (by decide) (by decide +kernel) (by decide +kernel) (by decide) (by decide), ⟨by unfold OneLine; decide, by decide⟩, by decide, by decide,
    ⟨v _ rfl, by decide⟩, sec_plain (by decide +kernel) (by decide +kernel) (by decide) (by decide +kernel) (by decide +kernel) (by decide) (by decide), by decide, v _ rfl, by decide⟩

example : (EndToEnd.methodsOf demoPage.src).map (fun ms => ms.map fun m => m.2.2) =
    some [EndToEnd.prologue 2 ++ [(2, c!"write('''a: ''')"), (2, c!"for i in x:"), (3, c!"write('''<b>''')"), (3, c!"write(_filter( i))"), (3, c!"write('''</b>''')"), (3, c!"y = 1"),
      (3, c!"z = y"), (3, []), (3, c!"z = 2"), (3, c!"write(''', ''')"), (2, c!"if 1: # one"), (3, c!"write('''!\n''')"), (2, c!"write('''.''')")] ++ [(2, Meth.stopLine)]] := by decide +kernel

example := C84_page (EndToEnd.demo_tame demoPage.src) EndToEnd.demo_usual fullSt demoPage demo_ok rfl

end Cheetah.Psp
