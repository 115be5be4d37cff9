import Verif.Preprocess
/-
C57: preprocessor tokens.
-/
namespace Cheetah.Preprocess

/-! ### Specification -/

/-- The documented defaults for a placeholder token and a directive token, either of which
may be missing. -/
def tokenDefaults (p t : Option Str) : List (Str × Str) :=
  (match p with
    | none => []
    | some p => [(c!"cheetahVarStartToken", p)]) ++
  (match t with
    | none => []
    | some t => [(c!"directiveStartToken", t), (c!"directiveEndToken", t), (c!"commentStartToken", t ++ t),
        (c!"multiLineCommentStartToken", t ++ c!"*"), (c!"multiLineCommentEndToken", c!"*" ++ t),
        (c!"EOLSlurpToken", t)])

/-- A token given and not empty. -/
def given : Option Str → Option Str
  | some [] => none
  | o => o

/-! ### C57 -/

theorem get_setDefault (k v : Str) (d : Dict Str Val) (key : Str) :
    (setDefault k v d).get key =
      match d.get key with
      | some x => some x
      | none => if key = k then some (.str v) else none := by
  unfold setDefault
  cases hk : d.get k with
  | none =>
    simp only [Option.isNone_none, if_true, Dict.get_set]
    by_cases h : key = k
    · subst h; rw [hk]
    · simp only [h, if_false]; cases d.get key <;> rfl
  | some x =>
    simp only [Option.isNone_some, Bool.false_eq_true, if_false]
    by_cases h : key = k
    · subst h; rw [hk]
    · simp only [h, if_false]; cases d.get key <;> rfl

theorem get_chain (key : Str) : ∀ (kvs : List (Str × Str)) (d : Dict Str Val),
    (kvs.foldl (fun d kv => setDefault kv.1 kv.2 d) d).get key =
      match d.get key with
      | some x => some x
      | none => (kvs.find? (fun kv => kv.1 = key)).map (fun kv => Val.str kv.2)
  | [], d => by cases h : d.get key <;> simp [h]
  | (k, v) :: kvs, d => by
    rw [List.foldl_cons, get_chain key kvs, get_setDefault]
    cases d.get key with
    | some x => rfl
    | none =>
      by_cases h : key = k
      · subst h; simp
      · simp [h, Ne.symm h]

theorem updateSettings_chain (d : Dict Str Val) (p t : Option Str) :
    updateSettings d p t = (tokenDefaults (given p) (given t)).foldl (fun d kv => setDefault kv.1 kv.2 d) d := by
  rcases p with _ | _ | ⟨c, p⟩ <;> rcases t with _ | _ | ⟨e, t⟩ <;> rfl

/-- C57: a setting the caller supplied keeps its value; any other gets the documented default
of the tokens given, and no further setting appears. -/
theorem C57_defaults (d : Dict Str Val) (p t : Option Str) (key : Str) :
    (updateSettings d p t).get key =
      match d.get key with
      | some v => some v
      | none => ((tokenDefaults (given p) (given t)).find? (fun kv => kv.1 = key)).map (fun kv => Val.str kv.2) := by
  rw [updateSettings_chain, get_chain]

example : updateSettings [(c!"commentStartToken", .str c!"//")] (some c!"@") (some c!"%") =
    [(c!"commentStartToken", .str c!"//"), (c!"cheetahVarStartToken", .str c!"@"),
     (c!"directiveStartToken", .str c!"%"), (c!"directiveEndToken", .str c!"%"),
     (c!"multiLineCommentStartToken", .str c!"%*"), (c!"multiLineCommentEndToken", .str c!"*%"),
     (c!"EOLSlurpToken", .str c!"%")] := by decide

/-- C57: which preprocessor settings are refused: tokens that are no pair of words, or
neither a placeholder token nor compiler settings. Otherwise the compiler settings are those
given, completed with the defaults of the two tokens. -/
theorem C57_settings (s : Settings) (p t : Option Str)
    (h : match s.tokens with
      | none => p = s.placeholderToken ∧ t = s.directiveToken
      | some (.list l) => ∃ a b, l = [a, b] ∧ p = some a ∧ t = some b
      | some (.str w) => ∃ a b, pyWords w = [a, b] ∧ p = some a ∧ t = some b
      | some .other => False) :
    normalizeSettings s =
      if given p = none ∧ (s.compilerSettings = none ∨ s.compilerSettings = some []) then .error .typeError
      else .ok (updateSettings (s.compilerSettings.getD []) p t) := by
  have hw : ∃ s', withTokens s = .ok s' ∧ s'.placeholderToken = p ∧ s'.directiveToken = t ∧
      s'.compilerSettings = s.compilerSettings := by
    unfold withTokens
    cases ht : s.tokens with
    | none => rw [ht] at h; exact ⟨s, rfl, h.1.symm, h.2.symm, rfl⟩
    | some tok =>
      rw [ht] at h
      cases tok with
      | other => exact h.elim
      | list l =>
        obtain ⟨a, b, rfl, rfl, rfl⟩ := h
        exact ⟨_, rfl, rfl, rfl, rfl⟩
      | str w =>
        obtain ⟨a, b, hw, rfl, rfl⟩ := h
        refine ⟨{ s with placeholderToken := some a, directiveToken := some b }, ?_, rfl, rfl, rfl⟩
        simp only [normalizeTokens, hw, ht]
  obtain ⟨s', e, e1, e2, e3⟩ := hw
  unfold normalizeSettings
  rw [e]
  simp only [finish, e1, e2, e3]
  have hp : (!truthy p) = decide (given p = none) := by
    rcases p with _ | _ | ⟨c, p⟩ <;> simp [truthy, given]
  have hc : (s.compilerSettings.getD []).isEmpty =
      decide (s.compilerSettings = none ∨ s.compilerSettings = some []) := by
    cases s.compilerSettings with
    | none => simp
    | some d => cases d <;> simp
  rw [hp, hc, ← Bool.decide_and]
  simp only [decide_eq_true_eq, And.comm]

/-- C57: tokens that are not a pair are refused. -/
theorem C57_bad_tokens (s : Settings) :
    (∀ l, s.tokens = some (.list l) → l.length ≠ 2 → normalizeSettings s = .error .valueError) ∧
    (∀ w, s.tokens = some (.str w) → (pyWords w).length ≠ 2 → normalizeSettings s = .error .valueError) ∧
    (s.tokens = some .other → normalizeSettings s = .error .preprocessError) := by
  refine ⟨?_, ?_, ?_⟩
  · intro l hl h
    simp only [normalizeSettings, withTokens, hl]
    match l, h with
    | [], _ => rfl
    | [_], _ => rfl
    | [_, _], h => exact absurd rfl h
    | _ :: _ :: _ :: _, _ => rfl
  · intro w hl h
    simp only [normalizeSettings, withTokens, hl, normalizeTokens]
    generalize pyWords w = l at h
    match l, h with
    | [], _ => rfl
    | [_], _ => rfl
    | [_, _], h => exact absurd rfl h
    | _ :: _ :: _ :: _, _ => rfl
  · intro h
    simp only [normalizeSettings, withTokens, h, normalizeTokens]

example : normalizeSettings ⟨some (.str c!"@ %"), none, none, none⟩ =
    .ok (updateSettings [] (some c!"@") (some c!"%")) := by decide +kernel

/-- C57: preprocessors run in order, each on the result of the one before, and the first
exception ends the run. -/
theorem C57_pipeline {σ ε : Type} (ps qs : List (σ → Except ε σ)) (s : σ) :
    preprocessSource (ps ++ qs) s = (preprocessSource ps s).bind (preprocessSource qs) := by
  induction ps generalizing s with
  | nil => rfl
  | cons p ps ih =>
    simp only [List.cons_append, preprocessSource]
    cases p s with
    | error e => rfl
    | ok s' => exact ih s'

end Cheetah.Preprocess
