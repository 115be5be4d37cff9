import Verif.CmdLine
import Verif.Props.NameMapper
import Mathlib.Data.List.Infix
/-
C86: a compiled template run as a script.
-/
namespace Cheetah.CmdLine

variable {M σ τ : Type}

/-! ### Specification -/

/-- What an option asks for: the environment, or the mapping in a file as pickle or JSON, where `-` is standard input; or help. -/
inductive Ask where
  | env
  | pickle (file : Str)
  | json (file : Str)
  | help
  deriving DecidableEq

/-- The ways of writing an option: its name may be cut short, and a file follows behind `=` or as the next argument. -/
inductive Written : List Str → Ask → Prop where
  | env (n : Str) : n ≠ [] → n <+: c!"env" → Written [c!"--" ++ n] .env
  | pickleEq (n f : Str) : n ≠ [] → n <+: c!"pickle" → Written [c!"--" ++ n ++ '=' :: f] (.pickle f)
  | pickle (n f : Str) : n ≠ [] → n <+: c!"pickle" → Written [c!"--" ++ n, f] (.pickle f)
  | jsonEq (n f : Str) : n ≠ [] → n <+: c!"json" → Written [c!"--" ++ n ++ '=' :: f] (.json f)
  | json (n f : Str) : n ≠ [] → n <+: c!"json" → Written [c!"--" ++ n, f] (.json f)
  | helpLong (n : Str) : n ≠ [] → n <+: c!"help" → Written [c!"--" ++ n] .help
  | help (k : Nat) : Written ['-' :: List.replicate (k + 1) 'h'] .help

/-- Options as they stand on the command line. -/
inductive Line : List Str → List Ask → Prop where
  | nil : Line [] []
  | cons {ws as : List Str} {a : Ask} {qs : List Ask} : Written ws a → Line as qs → Line (ws ++ as) (a :: qs)

/-- What ends the options: the end, `--`, or an argument that is none. -/
def Ends (rest : List Str) : Prop := ∀ a, rest.head? = some a → a = c!"--" ∨ a = c!"-" ∨ a.head? ≠ some '-'

/-- The mapping that an option asks for, and what is left of standard input; nothing where it cannot be read. -/
def fetch (w : World M σ) (q : Ask) (s : σ) : Option (M × σ) :=
  match q with
  | .env => some (w.environ, s)
  | .pickle f => if f = c!"-" then w.stdin false s else (w.file false f).map (·, s)
  | .json f => if f = c!"-" then w.stdin true s else (w.file true f).map (·, s)
  | .help => none

/-- The mappings that the options ask for, one after the other. -/
def gather (w : World M σ) : List Ask → σ → Option (List M × σ)
  | [], s => some ([], s)
  | q :: qs, s =>
    match fetch w q s with
    | none => none
    | some (m, s) => (gather w qs s).map fun r => (m :: r.1, r.2)

/-! ### Lemmas -/

/-- The names with whether they take a file. -/
def names : List (Bool × Str) := [(false, c!"help"), (false, c!"env"), (true, c!"pickle"), (true, c!"json")]

theorem longHasArgs_prefix {n opt : Str} {b : Bool} (h : (b, n) ∈ names) (ho : opt ≠ []) (hp : opt <+: n) : longHasArgs opt = some (b, n) := by
  have hi : opt ∈ n.inits := (List.mem_inits _ _).2 hp
  have all : ∀ p ∈ names, ∀ o ∈ p.2.inits, o ≠ [] → longHasArgs o = some p := by decide +kernel
  exact all _ h _ hi ho

theorem longHasArgs_some {opt n : Str} {b : Bool} (he : '=' ∉ opt) (h : longHasArgs opt = some (b, n)) : (b, n) ∈ names ∧ opt ≠ [] ∧ opt <+: n := by
  have h0 : opt ≠ [] := by
    rintro rfl
    revert h
    have : longHasArgs [] = none := by decide +kernel
    rw [this]
    exact nofun
  by_cases hx : ∃ p ∈ names, opt <+: p.2
  · obtain ⟨⟨b', n'⟩, hp, hpre⟩ := hx
    have := longHasArgs_prefix hp h0 hpre
    rw [this] at h
    cases h
    exact ⟨hp, h0, hpre⟩
  · exfalso
    have key : ∀ o ∈ longOpts, opt.isPrefixOf o = false := by
      intro o ho
      rw [Bool.eq_false_iff]
      intro hc
      have hc := List.isPrefixOf_iff_prefix.1 hc
      have cut : ∀ m : Str, opt <+: m ++ ['='] → opt <+: m := by
        intro m hm
        rcases List.prefix_concat_iff.1 hm with h1 | h1
        · exact absurd (by rw [h1]; simp) he
        · exact h1
      simp only [longOpts, List.mem_cons, List.not_mem_nil, or_false] at ho
      rcases ho with rfl | rfl | rfl | rfl
      · exact hx ⟨(false, c!"help"), by decide, hc⟩
      · exact hx ⟨(false, c!"env"), by decide, hc⟩
      · exact hx ⟨(true, c!"pickle"), by decide, cut c!"pickle" hc⟩
      · exact hx ⟨(true, c!"json"), by decide, cut c!"json" hc⟩
    have hf : (longOpts.filter fun o => opt.isPrefixOf o) = [] := by
      rw [List.filter_eq_nil_iff]
      intro o ho
      rw [key o ho]
      exact Bool.false_ne_true
    unfold longHasArgs at h
    simp only [hf, List.not_mem_nil, if_false] at h
    cases h

theorem noEq_of_prefix {n opt : Str} {b : Bool} (h : (b, n) ∈ names) (hp : opt <+: n) : '=' ∉ opt := by
  have all : ∀ p ∈ names, '=' ∉ p.2 := by decide
  exact fun hc => all _ h (hp.subset hc)

theorem takeWhile_noEq : ∀ {o : Str} (t : Str), '=' ∉ o → (o ++ '=' :: t).takeWhile (· != '=') = o ∧ (o ++ '=' :: t).dropWhile (· != '=') = '=' :: t ∧
    o.takeWhile (· != '=') = o ∧ o.dropWhile (· != '=') = []
  | [], t, _ => by simp
  | c :: o, t, h => by
    have hc : c ≠ '=' := fun e => h (by simp [e])
    obtain ⟨a, b, c', d⟩ := takeWhile_noEq (o := o) t fun e => h (by simp [e])
    simp [hc, a, b, c', d]

theorem long_shape (x : Str) : ¬((c!"--" ++ x).head? ≠ some '-' ∨ c!"--" ++ x = c!"-") ∧ (c!"--").isPrefixOf (c!"--" ++ x) = true ∧ (c!"--" ++ x).drop 2 = x := by
  refine ⟨?_, by simp [List.isPrefixOf], rfl⟩
  simp

/-- A long option without an argument. -/
theorem getopt_flag {n o : Str} (h : (false, n) ∈ names) (ho : o ≠ []) (hp : o <+: n) (rest : List Str) :
    getopt ((c!"--" ++ o) :: rest) = (getopt rest).map fun r => ((c!"--" ++ n, []) :: r.1, r.2) := by
  obtain ⟨s1, s2, s3⟩ := long_shape o
  obtain ⟨_, _, t3, t4⟩ := takeWhile_noEq [] (noEq_of_prefix h hp)
  rw [getopt, if_neg s1, if_neg (by intro e; exact ho (by simpa using e)), if_pos s2]
  simp only [s3, t3, t4, longHasArgs_prefix h ho hp]
  rfl

/-- A long option with its file behind `=`. -/
theorem getopt_eq {n o : Str} (h : (true, n) ∈ names) (ho : o ≠ []) (hp : o <+: n) (f : Str) (rest : List Str) :
    getopt ((c!"--" ++ o ++ '=' :: f) :: rest) = (getopt rest).map fun r => ((c!"--" ++ n, f) :: r.1, r.2) := by
  rw [List.append_assoc]
  obtain ⟨s1, s2, s3⟩ := long_shape (o ++ '=' :: f)
  obtain ⟨t1, t2, _, _⟩ := takeWhile_noEq f (noEq_of_prefix h hp)
  rw [getopt, if_neg s1, if_neg (by intro e; simp at e), if_pos s2]
  simp only [s3, t1, t2, longHasArgs_prefix h ho hp]
  rfl

/-- A long option with its file as the next argument. -/
theorem getopt_next {n o : Str} (h : (true, n) ∈ names) (ho : o ≠ []) (hp : o <+: n) (f : Str) (rest : List Str) :
    getopt ((c!"--" ++ o) :: f :: rest) = (getopt rest).map fun r => ((c!"--" ++ n, f) :: r.1, r.2) := by
  obtain ⟨s1, s2, s3⟩ := long_shape o
  obtain ⟨_, _, t3, t4⟩ := takeWhile_noEq [] (noEq_of_prefix h hp)
  rw [getopt, if_neg s1, if_neg (by intro e; exact ho (by simpa using e)), if_pos s2]
  simp only [s3, t3, t4, longHasArgs_prefix h ho hp]
  rfl

theorem shorts_h : ∀ k : Nat, shorts (List.replicate k 'h') = some (List.replicate k (c!"-h", []))
  | 0 => rfl
  | k + 1 => by simp [List.replicate_succ, shorts, shorts_h k]

theorem shorts_some : ∀ {s : Str} {os : List (Str × Str)}, shorts s = some os → s = List.replicate s.length 'h'
  | [], _, _ => rfl
  | c :: cs, os, h => by
    rw [shorts] at h
    split at h
    · rename_i hc
      cases h2 : shorts cs with
      | none => rw [h2] at h; cases h
      | some os2 => rw [List.length_cons, List.replicate_succ, ← shorts_some h2, hc]
    · cases h

theorem getopt_help (k : Nat) (rest : List Str) :
    getopt (('-' :: List.replicate (k + 1) 'h') :: rest) = (getopt rest).map fun r => (List.replicate (k + 1) (c!"-h", []) ++ r.1, r.2) := by
  have e : List.replicate (k + 1) 'h' = 'h' :: List.replicate k 'h' := List.replicate_succ
  rw [getopt, if_neg (by rw [e]; simp), if_neg (by rw [e]; simp), if_neg (by rw [e]; simp [List.isPrefixOf])]
  simp only [List.drop_succ_cons, List.drop_zero, shorts_h]

theorem getopt_ends {rest : List Str} (h : Ends rest) : ∃ r, getopt rest = some ([], r) := by
  cases rest with
  | nil => exact ⟨_, rfl⟩
  | cons a rest =>
    rw [getopt]
    split
    · exact ⟨_, rfl⟩
    · rename_i h1
      have : a = c!"--" := by
        rcases h a rfl with h2 | h2 | h2
        · exact h2
        · exact absurd (Or.inr h2) h1
        · exact absurd (Or.inl h2) h1
      rw [if_pos this]
      exact ⟨_, rfl⟩

/-- The options as `getopt` gives them. -/
def given : Ask → List (Str × Str) → Prop
  | .env, os => os = [(c!"--env", [])]
  | .pickle f, os => os = [(c!"--pickle", f)]
  | .json f, os => os = [(c!"--json", f)]
  | .help, os => os = [(c!"--help", [])] ∨ ∃ k, os = List.replicate (k + 1) (c!"-h", [])

theorem getopt_written {ws : List Str} {q : Ask} (h : Written ws q) (rest : List Str) :
    ∃ os, given q os ∧ getopt (ws ++ rest) = (getopt rest).map fun r => (os ++ r.1, r.2) := by
  cases h with
  | env n h1 h2 => exact ⟨_, rfl, getopt_flag (n := c!"env") (by decide) h1 h2 rest⟩
  | pickleEq n f h1 h2 => exact ⟨_, rfl, getopt_eq (n := c!"pickle") (by decide) h1 h2 f rest⟩
  | pickle n f h1 h2 => exact ⟨_, rfl, getopt_next (n := c!"pickle") (by decide) h1 h2 f rest⟩
  | jsonEq n f h1 h2 => exact ⟨_, rfl, getopt_eq (n := c!"json") (by decide) h1 h2 f rest⟩
  | json n f h1 h2 => exact ⟨_, rfl, getopt_next (n := c!"json") (by decide) h1 h2 f rest⟩
  | helpLong n h1 h2 => exact ⟨_, Or.inl rfl, getopt_flag (n := c!"help") (by decide) h1 h2 rest⟩
  | help k => exact ⟨_, Or.inr ⟨k, rfl⟩, getopt_help k rest⟩

/-- What is done for one option. -/
theorem act_given (w : World M σ) {q : Ask} {os : List (Str × Str)} (h : given q os) (more : List (Str × Str)) (sl : List M) (s : σ) :
    act w (os ++ more) sl s =
      if q = .help then (.usage 0, s) else
        match fetch w q s with
        | some (m, s) => act w more (m :: sl) s
        | none => (.raises, s) := by
  cases q with
  | env => cases h; rfl
  | pickle f =>
    cases h
    rw [if_neg nofun, List.singleton_append, act, if_neg (by decide), if_neg (by decide), if_pos rfl]
    simp only [fetch, load]
    split <;> (rename_i e; rw [e])
  | json f =>
    cases h
    rw [if_neg nofun, List.singleton_append, act, if_neg (by decide), if_neg (by decide), if_neg (by decide), if_pos rfl]
    simp only [fetch, load]
    split <;> (rename_i e; rw [e])
  | help =>
    rcases h with rfl | ⟨k, rfl⟩
    · rfl
    · rfl

/-- What is understood is options and what ends them. -/
theorem getopt_line : ∀ (n : Nat) (args : List Str), args.length ≤ n → (getopt args).isSome = true → ∃ as qs rest, args = as ++ rest ∧ Line as qs ∧ Ends rest
  | 0, args, hn, _ => by
    cases args with
    | nil => exact ⟨[], [], [], rfl, .nil, nofun⟩
    | cons a args => simp at hn
  | n + 1, args, hn, h => by
    cases args with
    | nil => exact ⟨[], [], [], rfl, .nil, nofun⟩
    | cons a rest =>
      have hn' : rest.length ≤ n := by simpa using hn
      have one : ∀ {ws q}, Written ws q → ∀ tail : List Str, a :: rest = ws ++ tail → tail.length ≤ n → (getopt tail).isSome = true →
          ∃ as qs rest', a :: rest = as ++ rest' ∧ Line as qs ∧ Ends rest' := by
        intro ws q hw tail e hl hs
        obtain ⟨as, qs, r, e2, hl2, he⟩ := getopt_line n tail hl hs
        exact ⟨ws ++ as, q :: qs, r, by rw [e, e2, List.append_assoc], .cons hw hl2, he⟩
      rw [getopt] at h
      split at h
      · rename_i h1
        refine ⟨[], [], a :: rest, rfl, .nil, fun b hb => ?_⟩
        cases hb
        rcases h1 with h1 | h1
        · exact Or.inr (Or.inr h1)
        · exact Or.inr (Or.inl h1)
      rename_i h1
      split at h
      · rename_i h2
        exact ⟨[], [], a :: rest, rfl, .nil, fun b hb => by cases hb; exact Or.inl h2⟩
      rename_i h2
      split at h
      · rename_i h3
        obtain ⟨x, rfl⟩ := List.isPrefixOf_iff_prefix.1 h3
        simp only at h
        have hx : (c!"--" ++ x).drop 2 = x := rfl
        rw [hx] at h
        obtain ⟨hne, hsplit⟩ : '=' ∉ x.takeWhile (· != '=') ∧
            x = x.takeWhile (· != '=') ++ x.dropWhile (· != '=') :=
          ⟨fun hc => by simpa using (List.all_eq_true.1 (List.all_takeWhile (p := (· != '=')) (l := x))) _ hc, List.takeWhile_append_dropWhile.symm⟩
        generalize x.takeWhile (· != '=') = o at h hne hsplit
        cases hd : x.dropWhile (· != '=') with
        | nil =>
          rw [hd] at h hsplit
          rw [List.append_nil] at hsplit
          subst hsplit
          cases hl : longHasArgs x with
          | none => rw [hl] at h; cases h
          | some bn =>
            obtain ⟨b, m⟩ := bn
            obtain ⟨hm, h0, hp⟩ := longHasArgs_some hne hl
            rw [hl] at h
            cases b with
            | false =>
              have hs : (getopt rest).isSome = true := by simpa using h
              simp only [names, List.mem_cons, Prod.mk.injEq, List.not_mem_nil, or_false] at hm
              rcases hm with ⟨_, rfl⟩ | ⟨_, rfl⟩ | ⟨hb, _⟩ | ⟨hb, _⟩
              · exact one (.helpLong x h0 hp) rest rfl hn' hs
              · exact one (.env x h0 hp) rest rfl hn' hs
              · cases hb
              · cases hb
            | true =>
              cases rest with
              | nil => cases h
              | cons v rest =>
                have hs : (getopt rest).isSome = true := by simpa using h
                have hn2 : rest.length ≤ n := by simp at hn'; omega
                simp only [names, List.mem_cons, Prod.mk.injEq, List.not_mem_nil, or_false] at hm
                rcases hm with ⟨hb, _⟩ | ⟨hb, _⟩ | ⟨_, rfl⟩ | ⟨_, rfl⟩
                · cases hb
                · cases hb
                · exact one (.pickle x v h0 hp) rest rfl hn2 hs
                · exact one (.json x v h0 hp) rest rfl hn2 hs
        | cons c f =>
          have hc : c = '=' := by
            have := List.head_dropWhile_not (· != '=') (l := x) (by rw [hd]; exact List.cons_ne_nil _ _)
            simpa [hd] using this
          subst hc
          rw [hd] at h hsplit
          subst hsplit
          cases hl : longHasArgs o with
          | none => rw [hl] at h; cases h
          | some bn =>
            obtain ⟨b, m⟩ := bn
            obtain ⟨hm, h0, hp⟩ := longHasArgs_some hne hl
            rw [hl] at h
            cases b with
            | false => cases h
            | true =>
              have hs : (getopt rest).isSome = true := by simpa using h
              simp only [names, List.mem_cons, Prod.mk.injEq, List.not_mem_nil, or_false] at hm
              rcases hm with ⟨hb, _⟩ | ⟨hb, _⟩ | ⟨_, rfl⟩ | ⟨_, rfl⟩
              · cases hb
              · cases hb
              · exact one (.pickleEq o f h0 hp) rest (by simp) hn' hs
              · exact one (.jsonEq o f h0 hp) rest (by simp) hn' hs
      · rename_i h3
        cases hs : shorts (a.drop 1) with
        | none => rw [hs] at h; cases h
        | some os =>
          rw [hs] at h
          have hs2 : (getopt rest).isSome = true := by simpa using h
          cases a with
          | nil => exact absurd (Or.inl nofun) h1
          | cons c t =>
            have hc : c = '-' := by
              by_contra hc
              exact h1 (Or.inl (by simpa using hc))
            subst hc
            have ht : t = List.replicate t.length 'h' := shorts_some hs
            cases t with
            | nil => exact absurd (Or.inr rfl) h1
            | cons d t =>
              refine one (.help t.length) rest ?_ hn' hs2
              rw [← List.length_cons (a := d), ← ht]
              rfl

/-! ### C86 -/

/-- C86: the options of a command line, however each of them is written, act in their order: each puts its mapping in front of the search list of the
template, then the template is printed. If one cannot be read, the script fails; after help, nothing is read or printed but the usage. What follows the options
is ignored. -/
theorem C86_options (w : World M σ) (args rest : List Str) (qs : List Ask) (hl : Line args qs) (he : Ends rest) (sl : List M) (s : σ) :
    (Ask.help ∉ qs → (run w (args ++ rest) sl s).1 =
      match gather w qs s with
      | some (ms, _) => .renders (ms.reverse ++ sl)
      | none => .raises) ∧
    ∀ qs1 qs2, qs = qs1 ++ .help :: qs2 → Ask.help ∉ qs1 →
      match gather w qs1 s with
      | some (_, s') => run w (args ++ rest) sl s = (.usage 0, s')
      | none => (run w (args ++ rest) sl s).1 = .raises := by
  obtain ⟨r, hr⟩ := getopt_ends he
  have key : ∃ os, getopt (args ++ rest) = some (os, r) ∧ ∀ (sl : List M) (s : σ),
      (Ask.help ∉ qs → (act w os sl s).1 = match gather w qs s with | some (ms, _) => .renders (ms.reverse ++ sl) | none => .raises) ∧
      ∀ qs1 qs2, qs = qs1 ++ .help :: qs2 → Ask.help ∉ qs1 →
      match gather w qs1 s with
      | some (_, s') => act w os sl s = (.usage 0, s')
      | none => (act w os sl s).1 = .raises := by
    induction hl with
    | nil => exact ⟨[], hr, fun sl s => ⟨fun _ => rfl, fun qs1 qs2 e => by simp at e⟩⟩
    | @cons ws as q qs hw hl ih =>
      obtain ⟨os, ho, hact⟩ := ih
      obtain ⟨os1, hg, ho1⟩ := getopt_written hw (as ++ rest)
      refine ⟨os1 ++ os, by rw [List.append_assoc, ho1, ho]; rfl, fun sl s => ?_⟩
      rw [act_given w hg]
      by_cases hq : q = .help
      · rw [if_pos hq]
        subst hq
        refine ⟨fun h => absurd (List.mem_cons_self) h, fun qs1 qs2 e hh => ?_⟩
        cases qs1 with
        | nil => rfl
        | cons q1 qs1 =>
          injection e with e1 e2
          exact absurd (by rw [e1]; exact List.mem_cons_self) hh
      · rw [if_neg hq]
        cases hf : fetch w q s with
        | none =>
          refine ⟨fun _ => by simp [gather, hf], fun qs1 qs2 e hh => ?_⟩
          cases qs1 with
          | nil => injection e with e1; exact absurd e1 hq
          | cons q1 qs1 =>
            injection e with e1 e2
            subst e1
            simp [gather, hf]
        | some p =>
          obtain ⟨m, s1⟩ := p
          obtain ⟨i1, i2⟩ := hact (m :: sl) s1
          constructor
          · intro h
            have i1 := i1 fun hc => h (List.mem_cons_of_mem _ hc)
            simp only [i1, gather, hf]
            cases gather w qs s1 with
            | none => rfl
            | some r => simp
          · intro qs1 qs2 e hh
            cases qs1 with
            | nil => injection e with e1; exact absurd e1 hq
            | cons q1 qs1 =>
              injection e with e1 e2
              subst e1
              have i2 := i2 qs1 qs2 e2 fun hc => hh (List.mem_cons_of_mem _ hc)
              simp only [gather, hf]
              cases hg2 : gather w qs1 s1 with
              | none => rw [hg2] at i2; exact i2
              | some r => rw [hg2] at i2; exact i2
  obtain ⟨os, h1, h2⟩ := key
  unfold run
  rw [h1]
  exact h2 sl s

/-- C86: the template is printed only then: the command line is options, none of them help, and what ends them, and all mappings could be read. -/
theorem C86_printed_iff (w : World M σ) (args : List Str) (sl sl' : List M) (s : σ) :
    (run w args sl s).1 = .renders sl' ↔
      ∃ as qs rest ms s', args = as ++ rest ∧ Line as qs ∧ Ends rest ∧ Ask.help ∉ qs ∧ gather w qs s = some (ms, s') ∧ sl' = ms.reverse ++ sl := by
  constructor
  · intro h
    have hs : (getopt args).isSome = true := by
      cases hg : getopt args with
      | none => unfold run at h; rw [hg] at h; cases h
      | some _ => rfl
    obtain ⟨as, qs, rest, rfl, hl, he⟩ := getopt_line _ args (Nat.le_refl _) hs
    obtain ⟨h1, h2⟩ := C86_options w as rest qs hl he sl s
    by_cases hh : Ask.help ∈ qs
    · exfalso
      obtain ⟨qs1, qs2, e, hn⟩ := List.eq_append_cons_of_mem hh
      have h2 := h2 qs1 qs2 e hn
      cases hg : gather w qs1 s with
      | none => rw [hg] at h2; rw [h2] at h; cases h
      | some r => rw [hg] at h2; rw [h2] at h; cases h
    · rw [h1 hh] at h
      cases hg : gather w qs s with
      | none => rw [hg] at h; cases h
      | some r =>
        rw [hg] at h
        cases h
        exact ⟨as, qs, rest, r.1, r.2, rfl, hl, he, hh, hg, rfl⟩
  · rintro ⟨as, qs, rest, ms, s', rfl, hl, he, hh, hg, rfl⟩
    rw [(C86_options w as rest qs hl he sl s).1 hh, hg]

/-- C86: where an option is not known, whatever is in front of it or behind it, the usage is printed with status 2 and nothing is read. -/
theorem C86_unknown (w : World M σ) (args rest : List Str) (qs : List Ask) (hl : Line args qs) (n : Str) (hn : '=' ∉ n) (more : Str)
    (hm : more.head? = none ∨ more.head? = some '=') (hne : n ++ more ≠ [])
    (hu : ∀ m ∈ [c!"help", c!"env", c!"pickle", c!"json"], n = [] ∨ ¬ n <+: m) (sl : List M) (s : σ) :
    run w (args ++ (c!"--" ++ n ++ more) :: rest) sl s = (.usage 2, s) := by
  have hbad : getopt ((c!"--" ++ n ++ more) :: rest) = none := by
    rw [List.append_assoc]
    obtain ⟨s1, s2, s3⟩ := long_shape (n ++ more)
    have ht : (n ++ more).takeWhile (· != '=') = n := by
      cases more with
      | nil => rw [List.append_nil]; exact (takeWhile_noEq [] hn).2.2.1
      | cons c more =>
        have : c = '=' := by simpa using hm
        subst this
        exact (takeWhile_noEq more hn).1
    have hl : longHasArgs n = none := by
      cases h : longHasArgs n with
      | none => rfl
      | some p =>
        obtain ⟨b, m⟩ := p
        obtain ⟨h1, h2, h3⟩ := longHasArgs_some hn h
        have : m ∈ [c!"help", c!"env", c!"pickle", c!"json"] := List.mem_map_of_mem (f := Prod.snd) h1
        rcases hu m this with h4 | h4
        · exact absurd h4 h2
        · exact absurd h3 h4
    rw [getopt, if_neg s1, if_neg (by intro e; exact hne (by simpa using e)), if_pos s2]
    simp only [s3, ht, hl]
  have key : getopt (args ++ (c!"--" ++ n ++ more) :: rest) = none := by
    induction hl with
    | nil => exact hbad
    | cons hw hl ih =>
      obtain ⟨os, _, h⟩ := getopt_written hw (_ ++ (c!"--" ++ n ++ more) :: rest)
      rw [List.append_assoc, h, ih]
      rfl
  unfold run
  rw [key]

/-- C86: a placeholder means what the last option that has its name says, and what the template says if none has. -/
theorem C86_last_wins (w : World M σ) (nm : NameMapper.World M τ) (args rest : List Str) (qs : List Ask) (hl : Line args qs) (he : Ends rest)
    (hh : Ask.help ∉ qs) (sl : List M) (s s' : σ) (ms : List M) (hg : gather w qs s = some (ms, s')) (exec : Bool) (t : τ) (name : Str) :
    ∃ sl', (run w (args ++ rest) sl s).1 = .renders sl' ∧
      (∀ ms1 m ms2, ms = ms1 ++ m :: ms2 → NameMapper.Has nm t m (NameMapper.head name) →
        (∀ m' ∈ ms2, NameMapper.Lacks nm t m' (NameMapper.head name)) →
        NameMapper.valueFromSearchList nm exec t sl' name = NameMapper.valueForName' nm exec t m name) ∧
      ((∀ m ∈ ms, NameMapper.Lacks nm t m (NameMapper.head name)) →
        ∀ sl1 m sl2, sl = sl1 ++ m :: sl2 → (∀ m' ∈ sl1, NameMapper.Lacks nm t m' (NameMapper.head name)) → NameMapper.Has nm t m (NameMapper.head name) →
        NameMapper.valueFromSearchList nm exec t sl' name = NameMapper.valueForName' nm exec t m name) := by
  refine ⟨ms.reverse ++ sl, by rw [(C86_options w args rest qs hl he sl s).1 hh, hg], ?_, ?_⟩
  · rintro ms1 m ms2 rfl hm hl2
    have : (ms1 ++ m :: ms2).reverse ++ sl = ms2.reverse ++ m :: (ms1.reverse ++ sl) := by simp
    rw [this]
    exact NameMapper.C01_first_namespace_wins nm exec t _ m _ name (fun n hn => hl2 n (List.mem_reverse.1 hn)) hm
  · rintro hlk sl1 m sl2 rfl hl1 hm
    rw [← List.append_assoc]
    refine NameMapper.C01_first_namespace_wins nm exec t _ m _ name (fun n hn => ?_) hm
    rcases List.mem_append.1 hn with h | h
    · exact hlk n (List.mem_reverse.1 h)
    · exact hl1 n h

/-- C86, a surprise: the template's first namespace holds what `#set global` sets (Template.py 1570), but the mappings of the options stand in front of it: a
name that an option has keeps its value from there, whatever the template sets. -/
theorem C86_set_global_counterexample (w : World M σ) (nm : NameMapper.World M τ) (globals self : M) (s : σ) (exec : Bool) (t : τ) (name : Str)
    (_set : NameMapper.Has nm t globals (NameMapper.head name)) (he : NameMapper.Has nm t w.environ (NameMapper.head name)) :
    ∃ sl', (run w [c!"--env"] [globals, self] s).1 = .renders sl' ∧
      NameMapper.valueFromSearchList nm exec t sl' name = NameMapper.valueForName' nm exec t w.environ name := by
  obtain ⟨sl', h1, h2, _⟩ := C86_last_wins w nm [c!"--env"] [] [.env] (.cons (.env c!"env" (by decide) (by decide)) .nil) nofun (by decide) [globals, self] s s
    [w.environ] rfl exec t name
  exact ⟨sl', h1, h2 [] w.environ [] rfl he nofun⟩

/-! ### Examples -/

/-- Two files and an environment; standard input holds one pickle. -/
def demo : World Nat Bool where
  environ := 1
  file := fun json f => if f = c!"a" then some (if json then 3 else 2) else none
  stdin := fun json s => if s ∧ json = false then some (4, false) else none

example : Line [c!"--e", c!"--pickle", c!"-", c!"--js=a"] [.env, .pickle c!"-", .json c!"a"] :=
  .cons (.env c!"e" (by decide) (by decide)) (.cons (.pickle c!"pickle" c!"-" (by decide) (by decide))
    (.cons (.jsonEq c!"js" c!"a" (by decide) (by decide)) .nil))
example : gather demo [.env, .pickle c!"-", .json c!"a"] true = some ([1, 4, 3], false) := by decide
example : run demo [c!"--e", c!"--pickle", c!"-", c!"--js=a", c!"x", c!"--env"] [7, 8] true = (.renders [3, 4, 1, 7, 8], false) := by decide +kernel
example : run demo [c!"--pickle", c!"-", c!"-hh", c!"--json=b"] [7] true = (.usage 0, false) := by decide +kernel
example : Ends [c!"x", c!"--env"] := fun a h => by cases h; decide
example : run demo [c!"--env", c!"--foo=1"] [7] true = (.usage 2, true) := by decide +kernel
example : run demo [c!"--env=1"] [7] true = (.usage 2, true) := by decide +kernel

/-- C86: standard input can be asked for once where reading takes all of it: the second time the script fails. -/
theorem C86_stdin_twice (w : World M σ) (h : ∀ s m s', w.stdin true s = some (m, s') → w.stdin true s' = none) (sl : List M) (s : σ) :
    (run w [c!"--json=-", c!"--json=-"] sl s).1 = .raises := by
  have e := (C86_options w [c!"--json=-", c!"--json=-"] [] [.json c!"-", .json c!"-"]
    (.cons (.jsonEq c!"json" c!"-" (by decide) (by decide)) (.cons (.jsonEq c!"json" c!"-" (by decide) (by decide)) .nil)) nofun sl s).1 (by decide)
  rw [List.append_nil] at e
  rw [e]
  cases h1 : w.stdin true s with
  | none => simp [gather, fetch, h1]
  | some p => simp [gather, fetch, h1, h s p.1 p.2 h1]

end Cheetah.CmdLine
