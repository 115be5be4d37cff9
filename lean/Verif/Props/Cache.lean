import Verif.CacheLemmas
/-
Properties C15 (what a cached region shows) and C17 (refreshCache).

Spec. A history is a list of events (`Ev`). `completed` lists, newest first, the
renderings of region bodies that reached their end: which item, and the text the
body wrote.
-/
namespace Cheetah.Cache

/-! ### Spec -/

/-- A body rendering ends with a `leave` event: the innermost open region's item and
the text its body wrote. -/
def record (s : State) (e : Ev) (acc : List ((Str × Str) × Str)) : List ((Str × Str) × Str) :=
  match e, s.stack with
  | .leave _, f :: _ => ((f.rid, f.dig), f.buf) :: acc
  | _, _ => acc

/-- Completed body renderings of a history started in `s`, newest first, before
those in `acc`. -/
def completed (pfx : Str) : State → List Ev → List ((Str × Str) × Str) → List ((Str × Str) × Str)
  | _, [], acc => acc
  | s, e :: es, acc =>
    completed pfx (stepEv pfx s e) es (record s e acc)

/-- The text of the most recent completed rendering of item `dig` of region `rid`. -/
def lastText : List ((Str × Str) × Str) → Str → Str → Option Str
  | [], _, _ => none
  | ((r, g), txt) :: h, rid, dig => if r = rid ∧ g = dig then some txt else lastText h rid dig

/-- Item ids are digests; other users of a shared store have another prefix. -/
def Legal (pfx : Str) : Ev → Prop
  | .enter _ dig _ _ _ => Digest dig
  | .refresh _ (some dig) => Digest dig
  | .foreign k _ _ => ∃ p r g, k = storeKey p r g ∧ ':' ∉ p ∧ Digest g ∧ p ≠ pfx
  | _ => True

/-- States reachable by a legal history, together with its completed renderings. -/
def Reaches (pfx : Str) (s : State) (h : List ((Str × Str) × Str)) : Prop :=
  ∃ evs, (∀ e ∈ evs, Legal pfx e) ∧ runEv pfx State.init evs = s ∧
    completed pfx State.init evs [] = h

/-- All text written so far, to the outside and to the open collectors
(outermost first). -/
def State.text (s : State) : Str := s.out ++ (s.stack.reverse.map (·.buf)).flatten

/-! ### Invariant -/

structure Inv (pfx : Str) (s : State) (h : List ((Str × Str) × Str)) : Prop where
  wf : WF s
  shows : ∀ rid dig v e, Digest dig → Dict.get s.store (storeKey pfx rid dig) = some (v, e) →
    lastText h rid dig = some v

theorem WF.of_sub {s s' : State} (h : WF s) (hs : s'.store.keys.Nodup)
    (hr : s'.regions = s.regions) (hst : ∀ f ∈ s'.stack, ∃ f' ∈ s.stack, f'.rid = f.rid ∧ f'.dig = f.dig) :
    WF s' := by
  refine ⟨hs, by rw [hr]; exact h.regs, by rw [hr]; exact h.items, ?_, by rw [hr]; exact h.old⟩
  intro f hf
  obtain ⟨f', hf', h1, h2⟩ := hst f hf
  have := h.stack f' hf'
  rw [h1, h2] at this
  rwa [getRegion_congr hr]

theorem WF.write {s : State} (h : WF s) (v : Str) : WF (s.write v) :=
  h.of_sub (by simpa using h.store) (by simp) (fun _ hf => write_stack_mem hf)

/-- Replacing region `rid` by one that still has all its items. -/
theorem WF.setRegion {s : State} (h : WF s) (rid : Str) (r : Region)
    (hr : r.items.keys.Nodup ∧ ∀ g ∈ r.items.keys, Digest g)
    (hk : ∀ g, ((getRegion s rid).items.get g).isSome → (r.items.get g).isSome)
    (hn : r.isNew = false) :
    WF { s with regions := s.regions.set rid r } := by
  refine ⟨h.store, Dict.nodup_set _ _ _ h.regs, ?_, ?_, ?_⟩
  · intro rid' r' hg
    rw [Dict.get_set] at hg
    by_cases he : rid' = rid
    · rw [if_pos he] at hg; cases hg; exact hr
    · rw [if_neg he] at hg; exact h.items rid' r' hg
  · intro f hf
    obtain ⟨h1, it, h2⟩ := h.stack f hf
    refine ⟨h1, ?_⟩
    rw [getRegion_set]
    by_cases he : f.rid = rid
    · rw [if_pos he]
      exact Option.isSome_iff_exists.1 (hk f.dig (by rw [← he]; simp [h2]))
    · rw [if_neg he]; exact ⟨it, h2⟩
  · intro rid' r' hg
    rw [Dict.get_set] at hg
    by_cases he : rid' = rid
    · rw [if_pos he] at hg; cases hg; exact hn
    · rw [if_neg he] at hg; exact h.old rid' r' hg

theorem getItem_keeps (r : Region) (dig g : Str) (h : (r.items.get g).isSome) :
    ((getItem r dig).2.items.get g).isSome := by
  by_cases he : g = dig
  · subst he; rw [getItem_get]; rfl
  · rw [getItem_get_ne r he]; exact h

theorem set_keeps (items : Dict Str Item) (dig g : Str) (i : Item) (h : (items.get g).isSome) :
    ((items.set dig i).get g).isSome := by
  rw [Dict.get_set]; split
  · rfl
  · exact h

theorem WF.enter {pfx : Str} {s : State} (h : WF s) {rid dig : Str} (hd : Digest dig) (i : Option Int)
    (test : Bool) (t : Times) :
    WF (enter pfx s rid dig i test t).2 ∧ Sub (Cache.enter pfx s rid dig i test t).2.store s.store := by
  have hreg := h.region rid
  have h1 := h.setRegion rid _ (getItem_keys _ hreg hd) (getItem_keeps _ dig)
    (h.getItem_old rid dig)
  rcases enter_cases pfx s rid dig i test t with ⟨_, v, e, _, _, he⟩ | ⟨_, d', hd', he⟩
  · rw [he]
    exact ⟨h1.write v, by simpa using Sub.refl _⟩
  · rw [he]
    have hsub : Sub d' s.store ∧ d'.keys.Nodup := by
      rcases hd' with rfl | ⟨rfl, _⟩
      · exact ⟨Sub.refl _, h.store⟩
      · exact ⟨Sub.del h.store _, Dict.nodup_del _ _ h.store⟩
    refine ⟨?_, hsub.1⟩
    have h2 := h1.setRegion rid
      { (getItem (getRegion s rid) dig).2 with
        items := (getItem (getRegion s rid) dig).2.items.set dig
          (bump (getItem (getRegion s rid) dig).1 i t.current) }
      (set_keys _ (getItem_keys _ hreg hd) hd)
      (by
        intro g hg
        apply set_keeps
        rw [getRegion_set, if_pos rfl] at hg
        exact hg)
      (h.getItem_old rid dig)
    refine ⟨hsub.2, h2.regs, h2.items, ?_, h2.old⟩
    intro f hf
    simp only [List.mem_cons] at hf
    rcases hf with rfl | hf
    · refine ⟨hd, bump (getItem (getRegion s rid) dig).1 i t.current, ?_⟩
      simp [getRegion, Dict.get_set]
    · exact h2.stack f hf

/-- What ending a region's body does. -/
theorem leave_eq {pfx : Str} {s : State} {f : Frame} {fs : List Frame} (hs : s.stack = f :: fs)
    {it : Item} (hi : (getRegion s f.rid).items.get f.dig = some it) (now : Int) :
    leave pfx s now =
      { s with
        stack := fs
        store := s.store.set (storeKey pfx f.rid f.dig) (f.buf, it.expiry)
        regions := s.regions.set f.rid { getRegion s f.rid with
          items := (getRegion s f.rid).items.set f.dig { it with refresh := some now } } }.write f.buf := by
  unfold leave
  simp [hs, hi]

theorem WF.leave {pfx : Str} {s : State} (h : WF s) (now : Int) : WF (leave pfx s now) := by
  cases hs : s.stack with
  | nil => simpa [Cache.leave, hs] using h
  | cons f fs =>
    obtain ⟨hd, it, hi⟩ := h.stack f (by simp [hs])
    rw [leave_eq hs hi]
    apply WF.write
    have h1 := h.setRegion f.rid
      { getRegion s f.rid with
        items := (getRegion s f.rid).items.set f.dig { it with refresh := some now } }
      (set_keys _ (h.region f.rid) hd) (fun g hg => set_keeps _ _ _ _ hg)
      (by
        unfold getRegion at hi ⊢
        cases hr : s.regions.get f.rid with
        | none => simp [hr, Dict.get] at hi
        | some r => exact h.old _ r hr)
    exact ⟨Dict.nodup_set _ _ _ h.store, h1.regs, h1.items, fun g hg => h1.stack g (by simp [hs, hg]),
      h1.old⟩

theorem refresh_spec {pfx : Str} (hp : ':' ∉ pfx) {s : State} (h : WF s) (hst : s.stack = [])
    (rid dig : Option Str) (hdig : ∀ g, dig = some g → Digest g) :
    let res := refreshCache pfx s rid dig
    WF res.2 ∧ res.2.stack = [] ∧ Sub res.2.store s.store := by
  intro res
  have hres : res = refreshCache pfx s rid dig := rfl
  clear_value res
  unfold refreshCache at hres
  cases rid with
  | none =>
    obtain ⟨a, b, _, c, _⟩ := clearRegions_spec hp s.regions.keys s h.regs h hst
    subst hres
    exact ⟨a, b, c⟩
  | some rid =>
    simp only at hres
    cases hr : s.regions.get rid with
    | none => simp only [hr] at hres; subst hres; exact ⟨h, hst, Sub.refl _⟩
    | some r =>
      simp only [hr] at hres
      cases dig with
      | none =>
        obtain ⟨a, b, _, c, _⟩ := clearRegion_spec hp s h hst rid
        subst hres
        exact ⟨a, b, c⟩
      | some dig =>
        have hgr : getRegion s rid = r := by simp [getRegion, hr]
        have hd := hdig dig rfl
        simp only at hres
        have h1 := h.setRegion rid (getItem r dig).2
          (getItem_keys _ (h.items rid r hr) hd) (by rw [hgr]; exact getItem_keeps _ dig)
          (by rw [← hgr]; exact h.getItem_old rid dig)
        cases hc : clearItem pfx s.store rid dig with
        | mk x d =>
          simp only [hc] at hres
          cases x with
          | error e =>
            obtain ⟨_, rfl⟩ := clearItem_error hc
            subst hres
            exact ⟨h1, hst, Sub.refl _⟩
          | ok u =>
            cases u
            obtain ⟨_, rfl⟩ := clearItem_ok hc
            subst hres
            have h2 := h1.setRegion rid
              { (getItem r dig).2 with
                items := (getItem r dig).2.items.set dig { (getItem r dig).1 with refresh := none } }
              (set_keys _ (getItem_keys _ (h.items rid r hr) hd) hd)
              (by
                intro g hg
                apply set_keeps
                rw [getRegion_set, if_pos rfl] at hg
                exact hg)
              (by rw [← hgr]; exact h.getItem_old rid dig)
            exact ⟨⟨Dict.nodup_del _ _ h.store, h2.regs, h2.items, by simp [hst], h2.old⟩, hst, Sub.del h.store _⟩

theorem Inv.sub {pfx : Str} {s s' : State} {h} (hi : Inv pfx s h) (hw : WF s')
    (hs : Sub s'.store s.store) : Inv pfx s' h := by
  refine ⟨hw, ?_⟩
  intro rid dig v e hd hg
  rcases hs (storeKey pfx rid dig) with h1 | h1
  · rw [h1] at hg; cases hg
  · exact hi.shows rid dig v e hd (h1 ▸ hg)

theorem inv_step {pfx : Str} (hp : ':' ∉ pfx) {s : State} {h} (hi : Inv pfx s h) (e : Ev)
    (he : Legal pfx e) :
    Inv pfx (stepEv pfx s e) (record s e h) := by
  cases e with
  | enter rid dig i t ts =>
    have := hi.wf.enter (pfx := pfx) (rid := rid) he i t ts
    exact hi.sub this.1 this.2
  | write txt => exact hi.sub (hi.wf.write txt) (by simpa [stepEv] using Sub.refl _)
  | leave now =>
    cases hs : s.stack with
    | nil => simpa [stepEv, Cache.leave, hs, record] using hi
    | cons f fs =>
      rw [show record s (.leave now) h = ((f.rid, f.dig), f.buf) :: h by simp [record, hs]]
      obtain ⟨hd, it, hit⟩ := hi.wf.stack f (by simp [hs])
      refine ⟨hi.wf.leave now, ?_⟩
      intro rid dig v ex hdig hg
      simp only [stepEv, leave_eq hs hit, write_store] at hg
      rw [Dict.get_set] at hg
      simp only [lastText]
      by_cases hk : storeKey pfx rid dig = storeKey pfx f.rid f.dig
      · rw [if_pos hk] at hg
        obtain ⟨h1, h2⟩ := storeKey_inj hp hdig hd hk
        rw [if_pos ⟨h1.symm, h2.symm⟩]
        cases hg; rfl
      · rw [if_neg hk] at hg
        rw [if_neg (by rintro ⟨rfl, rfl⟩; exact hk rfl)]
        exact hi.shows rid dig v ex hdig hg
  | abort =>
    refine hi.sub ?_ (Sub.refl _)
    exact hi.wf.of_sub hi.wf.store rfl (by simp [stepEv])
  | refresh rid dig =>
    by_cases hst : s.stack.isEmpty
    · have hst' : s.stack = [] := by simpa using hst
      have := refresh_spec hp hi.wf hst' rid dig (by intro g hg; subst hg; exact he)
      simp only [stepEv, hst, if_true]
      exact hi.sub this.1 this.2.2
    · simp only [stepEv, hst]; exact hi
  | evict k =>
    refine hi.sub ?_ (Sub.del hi.wf.store k)
    exact hi.wf.of_sub (Dict.nodup_del _ _ hi.wf.store) rfl (by
      intro f hf; exact ⟨f, hf, rfl, rfl⟩)
  | foreign k v ex =>
    refine ⟨hi.wf.of_sub (Dict.nodup_set _ _ _ hi.wf.store) rfl (by
      intro f hf; exact ⟨f, hf, rfl, rfl⟩), ?_⟩
    intro rid dig v' ex' hdig hg
    obtain ⟨p, r, g, rfl, h1, h2, h3⟩ := he
    simp only [stepEv] at hg
    rw [Dict.get_set, if_neg] at hg
    · exact hi.shows rid dig v' ex' hdig hg
    · intro hk
      exact h3 (C16_keys_injective _ _ _ _ _ _ hp h1 hdig h2 hk).1.symm

theorem inv_run {pfx : Str} (hp : ':' ∉ pfx) : ∀ (evs : List Ev) {s : State} {h},
    Inv pfx s h → (∀ e ∈ evs, Legal pfx e) →
    Inv pfx (runEv pfx s evs) (completed pfx s evs h) := by
  intro evs
  induction evs with
  | nil => intro s h hi _; exact hi
  | cons e evs ih =>
    intro s h hi hl
    exact ih (inv_step hp hi e (hl e (by simp))) (fun x hx => hl x (by simp [hx]))

theorem Reaches.inv {pfx : Str} (hp : ':' ∉ pfx) {s h} (hr : Reaches pfx s h) : Inv pfx s h := by
  obtain ⟨evs, hl, rfl, rfl⟩ := hr
  refine inv_run hp evs ⟨WF.init, ?_⟩ hl
  intro rid dig v e _ hg
  simp [State.init, Dict.get] at hg

theorem text_write (s : State) (v : Str) : (s.write v).text = s.text ++ v := by
  unfold State.write State.text
  cases hs : s.stack with
  | nil => simp [hs]
  | cons f fs => simp

/-! ### C15 -/

/-- **C15, a cached region shows the text of its last completed rendering.** Whenever
control reaches a cached region whose body is not executed this time, what is
written is exactly the text produced by the most recent completed execution of
the body for that item; when the body is executed nothing is written at entry. -/
theorem C15_shows_last_rendering {pfx : Str} (hp : ':' ∉ pfx) {s : State} {h}
    (hr : Reaches pfx s h) (rid dig : Str) (hd : Digest dig) (i : Option Int) (test : Bool) (t : Times) :
    let res := enter pfx s rid dig i test t
    (res.1 = false → ∃ txt, lastText h rid dig = some txt ∧ res.2.text = s.text ++ txt ∧
      res.2.stack.length = s.stack.length) ∧
    (res.1 = true → res.2.text = s.text ∧ res.2.stack = ⟨rid, dig, []⟩ :: s.stack) := by
  intro res
  have hi := hr.inv hp
  rcases enter_cases pfx s rid dig i test t with ⟨_, v, e, hg, _, he⟩ | ⟨_, d', hd', he⟩
  · have hres : res = _ := he
    rw [hres]
    refine ⟨fun _ => ⟨v, hi.shows rid dig v e hd hg, ?_, ?_⟩, by simp⟩
    · rw [text_write]; rfl
    · simp only [State.write]; split <;> simp_all
  · have hres : res = _ := he
    rw [hres]
    refine ⟨by simp, fun _ => ⟨?_, rfl⟩⟩
    simp [State.text]

/-- **C15, and the rendering that does execute the body shows what the body wrote**
(writes only append to the innermost collector; ending the region passes its
text on to the enclosing one and records it as the last completed rendering). -/
theorem C15_body_is_shown {pfx : Str} (hp : ':' ∉ pfx) {s : State} {h} (hr : Reaches pfx s h)
    (f : Frame) (fs : List Frame) (hs : s.stack = f :: fs) (now : Int) :
    (leave pfx s now).text = s.text ∧
    (leave pfx s now).stack.length = fs.length ∧
    Dict.get (leave pfx s now).store (storeKey pfx f.rid f.dig) =
      some (f.buf, ((getRegion s f.rid).items.get f.dig).elim 0 (·.expiry)) := by
  have hi := hr.inv hp
  obtain ⟨hd, it, hit⟩ := hi.wf.stack f (by simp [hs])
  rw [leave_eq hs hit]
  refine ⟨?_, ?_, ?_⟩
  · rw [text_write]; simp [State.text, hs]
  · simp only [State.write]; cases fs <;> simp
  · rw [write_store, Dict.get_set, if_pos rfl, hit]; rfl

/-- **C15, when the body is executed.** Exactly when the region has never had an
item, the item is new or was refreshed back, its expiry time has passed, the test
expression is true, or the store no longer has its text. -/
theorem C15_body_runs_iff (pfx : Str) (s : State) (rid dig : Str) (i : Option Int) (test : Bool)
    (t : Times) :
    (enter pfx s rid dig i test t).1 = false ↔
      test = false ∧
      ∃ r it t0 v e, s.regions.get rid = some r ∧ r.isNew = false ∧ r.items.get dig = some it ∧
        it.refresh = some t0 ∧ t0 ≠ 0 ∧ (it.expiry = 0 ∨ t.expired ≤ it.expiry) ∧
        Dict.get s.store (storeKey pfx rid dig) = some (v, e) ∧ (e = 0 ∨ t.get ≤ e) := by
  have hreg : (getRegion s rid).isNew = false ↔ ∃ r, s.regions.get rid = some r ∧ r.isNew = false := by
    unfold getRegion
    cases s.regions.get rid <;> simp
  rcases enter_cases pfx s rid dig i test t with ⟨⟨h1, h2, h3, h4⟩, v, e, hg, hne, he⟩ | ⟨hwhy, d', hd', he⟩
  · rw [he]
    simp only [true_iff]
    obtain ⟨r, hr, hrn⟩ := hreg.1 h1
    have hgr : getRegion s rid = r := by simp [getRegion, hr]
    rw [hgr] at h2 h4
    refine ⟨h3, r, (getItem r dig).1, ?_⟩
    have hit : r.items.get dig = some (getItem r dig).1 := by
      unfold getItem at h4 ⊢
      cases hh : r.items.get dig with
      | none => simp [hh, Item.refreshed] at h4
      | some it => rfl
    generalize (getItem r dig).1 = it at *
    cases hrt : it.refresh with
    | none => simp [Item.refreshed, hrt] at h4
    | some t0 =>
      refine ⟨t0, v, e, hr, hrn, hit, rfl, ?_, ?_, hg, by omega⟩
      · simpa [Item.refreshed, hrt] using h4
      · simp [Item.hasExpired] at h2; omega
  · rw [he]
    simp only [Bool.true_eq_false, false_iff]
    rintro ⟨h3, r, it, t0, v, e, hr, hrn, hit, hrt, ht0, hex, hg, hge⟩
    have hgr : getRegion s rid = r := by simp [getRegion, hr]
    rw [hgr] at hwhy
    have hitem : (getItem r dig).1 = it := by simp [getItem, hit]
    rw [hitem] at hwhy
    rcases hwhy with h | h | h | h | h | ⟨v', e', h, h'⟩
    · simp [hrn] at h
    · simp [Item.hasExpired] at h; omega
    · simp [h3] at h
    · simp [Item.refreshed, hrt] at h; exact ht0 h
    · rw [hg] at h; cases h
    · rw [hg] at h; cases h; omega

/-- What the machine remembers about one item: the region's `isNew`, the item and
the store's entry. -/
def itemView (pfx : Str) (s : State) (rid dig : Str) : Option Bool × Option Item × Option (Str × Int) :=
  ((s.regions.get rid).map (·.isNew), (getRegion s rid).items.get dig,
    Dict.get s.store (storeKey pfx rid dig))

/-- The event concerns neither item `dig` of region `rid` nor its entry. -/
def Elsewhere (pfx : Str) (s : State) (rid dig : Str) : Ev → Prop
  | .enter r g _ _ _ => Digest g ∧ ¬ (r = rid ∧ g = dig)
  | .leave _ => ∀ f fs, s.stack = f :: fs → ¬ (f.rid = rid ∧ f.dig = dig)
  | .refresh _ _ => False
  | .evict k => k ≠ storeKey pfx rid dig
  | .foreign k _ _ => k ≠ storeKey pfx rid dig
  | _ => True

/-- Every event of the history concerns other items. -/
def AllElsewhere (pfx : Str) (rid dig : Str) : State → List Ev → Prop
  | _, [] => True
  | s, e :: es => Elsewhere pfx s rid dig e ∧ AllElsewhere pfx rid dig (stepEv pfx s e) es

/-- The entry of an existing, not-new region item stays as it is. -/
theorem elsewhere_step {pfx : Str} (hp : ':' ∉ pfx) {s : State} (hw : WF s) {rid dig : Str}
    (hd : Digest dig) (hn : (s.regions.get rid).map (·.isNew) = some false) (e : Ev)
    (he : Elsewhere pfx s rid dig e) :
    itemView pfx (stepEv pfx s e) rid dig = itemView pfx s rid dig ∧ WF (stepEv pfx s e) := by
  have hregn : ∀ (r : Region), s.regions.get rid = some r → r.isNew = false := by
    intro r hr; simpa [hr] using hn
  cases e with
  | enter r g i t ts =>
    obtain ⟨hg, hne⟩ := he
    have hkne : storeKey pfx rid dig ≠ storeKey pfx r g := by
      intro hk
      obtain ⟨h1, h2⟩ := storeKey_inj hp hd hg hk
      exact hne ⟨h1.symm, h2.symm⟩
    refine ⟨?_, (hw.enter hg i t ts).1⟩
    simp only [stepEv]
    -- what matters of the outcome
    have key : ∀ (st : State) (r' : Region), st.regions.get r = some r' →
        (∀ x, x ≠ r → st.regions.get x = s.regions.get x) →
        (r = rid → r'.isNew = false ∧ r'.items.get dig = (getRegion s rid).items.get dig) →
        Dict.get st.store (storeKey pfx rid dig) = Dict.get s.store (storeKey pfx rid dig) →
        itemView pfx st rid dig = itemView pfx s rid dig := by
      intro st r' h1 h2 h3 h4
      unfold itemView
      rw [h4]
      by_cases hr : rid = r
      · subst hr
        obtain ⟨h5, h6⟩ := h3 rfl
        rw [h1, hn]
        simp [getRegion, h1, h5] at h6 ⊢; exact h6
      · rw [h2 rid hr]
        simp [getRegion, h2 rid hr]
    have hnew : r = rid → (getItem (getRegion s r) g).2.isNew = false ∧
        (g ≠ dig → (getItem (getRegion s r) g).2.items.get dig = (getRegion s rid).items.get dig) := by
      intro hrr
      subst hrr
      refine ⟨?_, fun hgd => by rw [getItem_get_ne _ (Ne.symm hgd)]⟩
      cases hb : (getItem (getRegion s r) g).2.isNew with
      | false => rfl
      | true =>
        have := (getItem_isNew _ _ hb).1
        cases hrg : s.regions.get r with
        | none => simp [hrg] at hn
        | some r0 =>
          have := hregn r0 hrg
          simp [getRegion, hrg, this] at *
    rcases enter_cases pfx s r g i t ts with ⟨_, v, ex, _, _, heq⟩ | ⟨_, d', hd', heq⟩
    · rw [heq]
      refine key _ (getItem (getRegion s r) g).2 (by simp [Dict.get_set])
        (fun x hx => by simp [Dict.get_set, hx]) ?_ (by simp)
      intro hrr
      have := hnew hrr
      exact ⟨this.1, this.2 (fun hgd => hne ⟨hrr, hgd⟩)⟩
    · rw [heq]
      refine key _ _ (by simp only [Dict.get_set, if_pos]; rfl)
        (fun x hx => by simp [Dict.get_set, hx]) ?_ ?_
      · intro hrr
        have h5 := hnew hrr
        have hgd : g ≠ dig := fun hgd => hne ⟨hrr, hgd⟩
        exact ⟨h5.1, by rw [Dict.get_set_ne _ _ (Ne.symm hgd)]; exact h5.2 hgd⟩
      · rcases hd' with rfl | ⟨rfl, _⟩
        · rfl
        · exact Dict.get_del_ne _ hkne
  | write txt =>
    exact ⟨by simp [itemView, stepEv], hw.write txt⟩
  | leave now =>
    refine ⟨?_, hw.leave now⟩
    cases hs : s.stack with
    | nil => simp [stepEv, Cache.leave, hs]
    | cons f fs =>
      have hne := he f fs hs
      obtain ⟨hfd, it, hit⟩ := hw.stack f (by simp [hs])
      have hkne : storeKey pfx rid dig ≠ storeKey pfx f.rid f.dig := by
        intro hk
        obtain ⟨h1, h2⟩ := storeKey_inj hp hd hfd hk
        exact hne ⟨h1.symm, h2.symm⟩
      simp only [stepEv]
      rw [leave_eq hs hit]
      unfold itemView
      rw [write_store, write_regions, getRegion_write]
      simp only [Dict.get_set_ne _ _ hkne]
      by_cases hr : rid = f.rid
      · have hgd : dig ≠ f.dig := fun h => hne ⟨hr.symm, h.symm⟩
        subst hr
        cases hrg : s.regions.get f.rid with
        | none => simp [hrg] at hn
        | some r0 => simp [getRegion, Dict.get_set, hgd, hrg]
      · simp [getRegion, Dict.get_set, hr]
  | abort =>
    exact ⟨rfl, hw.of_sub hw.store rfl (by simp [stepEv])⟩
  | refresh a b => exact absurd he id
  | evict k =>
    refine ⟨?_, hw.of_sub (Dict.nodup_del _ _ hw.store) rfl (by
      intro f hf; exact ⟨f, hf, rfl, rfl⟩)⟩
    simp only [itemView, stepEv]
    rw [Dict.get_del_ne _ (Ne.symm he)]
    rfl
  | foreign k v ex =>
    refine ⟨?_, hw.of_sub (Dict.nodup_set _ _ _ hw.store) rfl (by
      intro f hf; exact ⟨f, hf, rfl, rfl⟩)⟩
    simp only [itemView, stepEv]
    rw [Dict.get_set_ne _ _ (Ne.symm he)]
    rfl

theorem elsewhere_run {pfx : Str} (hp : ':' ∉ pfx) {rid dig : Str} (hd : Digest dig) :
    ∀ (evs : List Ev) {s : State}, WF s → (s.regions.get rid).map (·.isNew) = some false →
    AllElsewhere pfx rid dig s evs →
    itemView pfx (runEv pfx s evs) rid dig = itemView pfx s rid dig ∧ WF (runEv pfx s evs) := by
  intro evs
  induction evs with
  | nil => intro s hw _ _; exact ⟨rfl, hw⟩
  | cons e evs ih =>
    intro s hw hn ha
    obtain ⟨h1, h2⟩ := ha
    obtain ⟨h3, h4⟩ := elsewhere_step hp hw hd hn e h1
    have h3' : ((stepEv pfx s e).regions.get rid).map (·.isNew) = some false := by
      rw [← hn]; exact congrArg (·.1) h3
    obtain ⟨h5, h6⟩ := ih h4 h3' h2
    exact ⟨h5.trans h3, h6⟩

/-- **C15, refresh interval.** A body entered at time `c` with interval `d` and
completed is executed again by a later entry (test false, no refreshCache or loss
of the entry in between, other regions doing anything) exactly when that entry's
clock is past `c + d`; without an interval on an item that never had one, it is
not executed again. -/
theorem C15_interval {pfx : Str} (hp : ':' ∉ pfx) {s : State} {h} (hr : Reaches pfx s h)
    (rid dig : Str) (hd : Digest dig) (i i' : Option Int) (test : Bool) (t t' : Times) (now : Int)
    (body post : List Ev) (hnow : now ≠ 0)
    -- the body was executed …
    (hrun : (enter pfx s rid dig i test t).1 = true)
    -- … it did things that do not concern this item, and reached its end …
    (hbody : AllElsewhere pfx rid dig (enter pfx s rid dig i test t).2 body)
    (hend : ∃ buf fs, (runEv pfx (enter pfx s rid dig i test t).2 body).stack = ⟨rid, dig, buf⟩ :: fs)
    -- … and then other things happened
    (hpost : AllElsewhere pfx rid dig
      (leave pfx (runEv pfx (enter pfx s rid dig i test t).2 body) now) post) :
    let s' := runEv pfx (leave pfx (runEv pfx (enter pfx s rid dig i test t).2 body) now) post
    (∀ d, i = some d → d ≠ 0 → t.current + d ≠ 0 →
      ((enter pfx s' rid dig i' false t').1 = true ↔
        t'.expired > t.current + d ∨ t'.get > t.current + d)) ∧
    ((i = none ∨ i = some 0) → (∀ it, (getRegion s rid).items.get dig = some it → it.expiry = 0) →
      (enter pfx s' rid dig i' false t').1 = false) := by
  intro s'
  have hs' : s' = runEv pfx (leave pfx (runEv pfx (enter pfx s rid dig i test t).2 body) now) post := rfl
  clear_value s'
  have hw := (hr.inv hp).wf
  -- after entry
  have hw1 := (hw.enter (pfx := pfx) (rid := rid) hd i test t).1
  have h1 : ∃ d', (enter pfx s rid dig i test t).2 = { s with
            store := d'
            regions := (s.regions.set rid (getItem (getRegion s rid) dig).2).set rid
              { (getItem (getRegion s rid) dig).2 with
                items := (getItem (getRegion s rid) dig).2.items.set dig
                  (bump (getItem (getRegion s rid) dig).1 i t.current) }
            stack := ⟨rid, dig, []⟩ :: s.stack } := by
    rcases enter_cases pfx s rid dig i test t with ⟨_, v, e, _, _, he⟩ | ⟨_, d', _, he⟩
    · rw [he] at hrun; cases hrun
    · exact ⟨d', by rw [he]⟩
  obtain ⟨d', h1⟩ := h1
  generalize (enter pfx s rid dig i test t).2 = s1 at *
  have hnew := hw.getItem_old rid dig
  have hn1 : (s1.regions.get rid).map (·.isNew) = some false := by
    rw [h1]; simp only [Dict.get_set, if_pos, Option.map_some]; rw [hnew]
  have hit1 : (getRegion s1 rid).items.get dig = some (bump (getItem (getRegion s rid) dig).1 i t.current) := by
    rw [h1]; simp [getRegion, Dict.get_set]
  -- after the body
  obtain ⟨hv2, hw2⟩ := elsewhere_run hp hd body hw1 hn1 hbody
  generalize runEv pfx s1 body = s2 at *
  have hit2 : (getRegion s2 rid).items.get dig = some (bump (getItem (getRegion s rid) dig).1 i t.current) := by
    rw [← hit1]; exact congrArg (·.2.1) hv2
  have hn2 : (s2.regions.get rid).map (·.isNew) = some false := by
    rw [← hn1]; exact congrArg (·.1) hv2
  generalize hbit : bump (getItem (getRegion s rid) dig).1 i t.current = bit at *
  obtain ⟨buf, fs, hstk⟩ := hend
  -- after the end of the body
  have hw3 := hw2.leave (pfx := pfx) now
  have h3 := leave_eq (pfx := pfx) hstk (it := bit) hit2 now
  generalize leave pfx s2 now = s3 at *
  have hn3 : (s3.regions.get rid).map (·.isNew) = some false := by
    rw [h3]
    simp only [write_regions, Dict.get_set, if_pos, Option.map_some]
    unfold getRegion
    cases hrg : s2.regions.get rid with
    | none => simp [hrg] at hn2
    | some r => simpa [hrg] using hn2
  obtain ⟨hv4, hw4⟩ := elsewhere_run hp hd post hw3 hn3 hpost
  rw [← hs'] at hv4 hw4
  have hit4 : (getRegion s' rid).items.get dig = some { bit with refresh := some now } := by
    have : (getRegion s' rid).items.get dig = (getRegion s3 rid).items.get dig := congrArg (·.2.1) hv4
    rw [this, h3, getRegion_write]
    simp [getRegion, Dict.get_set]
  have hst4 : Dict.get s'.store (storeKey pfx rid dig) = some (buf, bit.expiry) := by
    have : Dict.get s'.store (storeKey pfx rid dig) = Dict.get s3.store (storeKey pfx rid dig) :=
      congrArg (·.2.2) hv4
    rw [this, h3, write_store]
    simp [Dict.get_set]
  have hn4 : (s'.regions.get rid).map (·.isNew) = some false := by
    rw [← hn3]; exact congrArg (·.1) hv4
  obtain ⟨r4, hr4, hrn4⟩ : ∃ r, s'.regions.get rid = some r ∧ r.isNew = false := by
    cases hrg : s'.regions.get rid with
    | none => simp [hrg] at hn4
    | some r => exact ⟨r, rfl, by simpa [hrg] using hn4⟩
  have hgr4 : getRegion s' rid = r4 := by simp [getRegion, hr4]
  rw [hgr4] at hit4
  have hiff := C15_body_runs_iff pfx s' rid dig i' false t'
  constructor
  · intro d hid hd0 hcd
    have hex : bit.expiry = t.current + d := by
      rw [← hbit, hid]; simp [bump, hd0]
    constructor
    · intro hT
      apply Classical.byContradiction
      intro hno
      have : (enter pfx s' rid dig i' false t').1 = false := by
        rw [hiff]
        exact ⟨rfl, r4, _, now, buf, bit.expiry, hr4, hrn4, hit4, rfl, hnow,
          by simp only [hex]; omega, hst4, by rw [hex]; omega⟩
      rw [this] at hT; cases hT
    · intro hlate
      cases hT : (enter pfx s' rid dig i' false t').1 with
      | true => rfl
      | false =>
        obtain ⟨_, r, it, t0, v, e, a1, _, a3, _, _, a6, a7, a8⟩ := hiff.1 hT
        rw [hr4] at a1; cases a1
        rw [hit4] at a3; cases a3
        rw [hst4] at a7; cases a7
        simp only at a6
        omega
  · intro hi0 hexp
    have hex : bit.expiry = 0 := by
      have hb : bit = (getItem (getRegion s rid) dig).1 := by
        rw [← hbit]; rcases hi0 with rfl | rfl <;> simp [bump]
      rw [hb]
      unfold getItem
      cases hg : (getRegion s rid).items.get dig with
      | none => rfl
      | some it => exact hexp it hg
    rw [hiff]
    exact ⟨rfl, r4, _, now, buf, bit.expiry, hr4, hrn4, hit4, rfl, hnow, Or.inl hex, hst4, Or.inl hex⟩

/-- **C15, a body that raises leaves the earlier content in place.** If the text was
in the store and unexpired when the body was entered, it is still there after the
exception (whatever the body did, on other items, before raising), and a later
entry that need not re-execute the body shows it. -/
theorem C15_exception_keeps_content {pfx : Str} (hp : ':' ∉ pfx) {s : State} {h} (hr : Reaches pfx s h)
    (rid dig : Str) (hd : Digest dig) (i : Option Int) (test : Bool) (t : Times) (body : List Ev)
    (v : Str) (e : Int)
    (hstored : Dict.get s.store (storeKey pfx rid dig) = some (v, e)) (hlive : e = 0 ∨ t.get ≤ e)
    (hrun : (enter pfx s rid dig i test t).1 = true)
    (hbody : AllElsewhere pfx rid dig (enter pfx s rid dig i test t).2 body) :
    let s' := stepEv pfx (runEv pfx (enter pfx s rid dig i test t).2 body) .abort
    Dict.get s'.store (storeKey pfx rid dig) = some (v, e) ∧
    s'.stack = [] ∧
    ((getRegion s' rid).items.get dig).map (·.refresh) =
      some (((getRegion s rid).items.get dig).bind (·.refresh)) := by
  intro s'
  have hs' : s' = stepEv pfx (runEv pfx (enter pfx s rid dig i test t).2 body) .abort := rfl
  clear_value s'
  have hw := (hr.inv hp).wf
  have hw1 := (hw.enter (pfx := pfx) (rid := rid) hd i test t).1
  rcases enter_cases pfx s rid dig i test t with ⟨_, v', e', _, _, he⟩ | ⟨_, d', hd', he⟩
  · rw [he] at hrun; cases hrun
  have hdd : d' = s.store := by
    rcases hd' with rfl | ⟨_, v', e', hg, h1, h2⟩
    · rfl
    · rw [hstored] at hg; cases hg; omega
  subst hdd
  have h1 := congrArg (·.2) he
  simp only at h1
  generalize (enter pfx s rid dig i test t).2 = s1 at *
  have hn1 : (s1.regions.get rid).map (·.isNew) = some false := by
    rw [h1]; simp only [Dict.get_set, if_pos, Option.map_some]; rw [hw.getItem_old rid dig]
  obtain ⟨hv2, _⟩ := elsewhere_run hp hd body hw1 hn1 hbody
  have e1 : Dict.get s'.store (storeKey pfx rid dig) = Dict.get s1.store (storeKey pfx rid dig) := by
    rw [hs']; exact congrArg (·.2.2) hv2
  have e2 : (getRegion s' rid).items.get dig = (getRegion s1 rid).items.get dig := by
    rw [hs']; exact congrArg (·.2.1) hv2
  refine ⟨?_, by rw [hs']; rfl, ?_⟩
  · rw [e1, h1]; exact hstored
  · rw [e2, h1]
    simp only [getRegion, Dict.get_set, if_pos, Option.getD_some, Option.map_some]
    congr 1
    have hb : ∀ it : Item, (bump it i t.current).refresh = it.refresh := by
      intro it; unfold bump; split
      · split <;> rfl
      · rfl
    rw [hb]
    unfold getItem
    cases ((s.regions.get rid).getD ⟨true, []⟩).items.get dig <;> rfl

/-! ### C17 -/

/-- An entry for an item the template does not hold, or holds unrefreshed, runs the
body. -/
theorem enter_runs {pfx : Str} {s : State} {rid dig : Str}
    (h : ∀ it, (getRegion s rid).items.get dig = some it → it.refresh = none)
    (i : Option Int) (test : Bool) (t : Times) : (enter pfx s rid dig i test t).1 = true := by
  cases hT : (enter pfx s rid dig i test t).1 with
  | true => rfl
  | false =>
    obtain ⟨_, r, it, t0, v, e, a1, _, a3, a4, _⟩ := (C15_body_runs_iff pfx s rid dig i test t).1 hT
    have := h it (by simpa [getRegion, a1] using a3)
    rw [this] at a4; cases a4

/-- **C17, refreshCache()** (all regions): it succeeds iff every item the template
holds has an entry in the store, and then every later entry of any cached region
executes its body. -/
theorem C17_refresh_all {pfx : Str} (hp : ':' ∉ pfx) {s : State} {h} (hr : Reaches pfx s h)
    (hst : s.stack = []) :
    ((refreshCache pfx s none none).1 = .ok () ↔
      ∀ rid dig it, (getRegion s rid).items.get dig = some it →
        (Dict.get s.store (storeKey pfx rid dig)).isSome) ∧
    ((refreshCache pfx s none none).1 = .ok () → ∀ rid dig i test t,
      (enter pfx (refreshCache pfx s none none).2 rid dig i test t).1 = true) := by
  have hw := (hr.inv hp).wf
  obtain ⟨a1, a2, a3, a4, a5, a6, a7⟩ := clearRegions_spec hp s.regions.keys s hw.regs hw hst
  have hdef : refreshCache pfx s none none = clearRegions pfx s.regions.keys s := rfl
  rw [hdef]
  have habs : ∀ rid, rid ∉ s.regions.keys → ∀ dig, (getRegion s rid).items.get dig = none := by
    intro rid hrid dig
    simp [getRegion, (Dict.get_eq_none _ _).2 hrid, Dict.get]
  constructor
  · rw [a5]
    constructor
    · intro hh rid dig it hit
      by_cases hm : rid ∈ s.regions.keys
      · exact hh rid hm dig it hit
      · rw [habs rid hm] at hit; cases hit
    · intro hh rid _ dig it hit
      exact hh rid dig it hit
  · intro hok rid dig i test t
    apply enter_runs
    intro it hit
    by_cases hm : rid ∈ s.regions.keys
    · rw [a6 hok rid hm] at hit; cases hit
    · rw [a7 rid hm, habs rid hm] at hit; cases hit

/-- **C17, refreshCache(region)**: likewise for the items of that region; the other
regions, and what the store has for them, are untouched. -/
theorem C17_refresh_region {pfx : Str} (hp : ':' ∉ pfx) {s : State} {h} (hr : Reaches pfx s h)
    (hst : s.stack = []) (rid : Str) :
    ((refreshCache pfx s (some rid) none).1 = .ok () ↔
      ∀ dig it, (getRegion s rid).items.get dig = some it →
        (Dict.get s.store (storeKey pfx rid dig)).isSome) ∧
    ((refreshCache pfx s (some rid) none).1 = .ok () → ∀ dig i test t,
      (enter pfx (refreshCache pfx s (some rid) none).2 rid dig i test t).1 = true) ∧
    (∀ rid' dig, rid' ≠ rid → Digest dig →
      itemView pfx (refreshCache pfx s (some rid) none).2 rid' dig = itemView pfx s rid' dig) := by
  have hw := (hr.inv hp).wf
  obtain ⟨a1, a2, a3, a4, a5, a6, a7, a8, a9⟩ := clearRegion_spec hp s hw hst rid
  have hdef : refreshCache pfx s (some rid) none = clearRegion pfx s rid := by
    unfold refreshCache clearRegion
    cases hr : s.regions.get rid <;> simp [hr]
  rw [hdef]
  refine ⟨a5, ?_, ?_⟩
  · intro hok dig i test t
    apply enter_runs
    intro it hit
    rw [a6 hok] at hit; cases hit
  · intro rid' dig hne hd
    simp only [itemView, getRegion, a7 rid' hne, a8 rid' dig hd hne]

/-- **C17, refreshCache(region, item)**: it succeeds iff the template has no such
region or the store has an entry for the item; then the next entry of that item
executes the body; every other item is untouched. -/
theorem C17_refresh_item {pfx : Str} (hp : ':' ∉ pfx) {s : State} {h} (hr : Reaches pfx s h)
    (rid dig : Str) (hd : Digest dig) :
    ((refreshCache pfx s (some rid) (some dig)).1 = .ok () ↔
      (s.regions.get rid = none ∨ (Dict.get s.store (storeKey pfx rid dig)).isSome)) ∧
    ((refreshCache pfx s (some rid) (some dig)).1 = .ok () → ∀ i test t,
      (enter pfx (refreshCache pfx s (some rid) (some dig)).2 rid dig i test t).1 = true) ∧
    (∀ rid' dig', ¬ (rid' = rid ∧ dig' = dig) → Digest dig' →
      itemView pfx (refreshCache pfx s (some rid) (some dig)).2 rid' dig' = itemView pfx s rid' dig') := by
  have hw := (hr.inv hp).wf
  unfold refreshCache
  cases hrg : s.regions.get rid with
  | none =>
    simp only [hrg]
    refine ⟨by simp, ?_, by simp⟩
    intro _ i test t
    apply enter_runs
    intro it hit
    simp [getRegion, hrg, Dict.get] at hit
  | some r =>
    have hgr : getRegion s rid = r := by simp [getRegion, hrg]
    have hnew : (getItem r dig).2.isNew = r.isNew := by
      rw [hw.old rid r hrg, ← hgr]; exact hw.getItem_old rid dig
    simp only [hrg]
    cases hc : clearItem pfx s.store rid dig with
    | mk x d =>
      cases x with
      | error e =>
        obtain ⟨h1, rfl⟩ := clearItem_error hc
        simp only
        refine ⟨by simp [h1], (by intro hh; cases hh), ?_⟩
        intro rid' dig' hne _
        unfold itemView
        by_cases hrr : rid' = rid
        · subst hrr
          have hdd : dig' ≠ dig := fun h => hne ⟨rfl, h⟩
          simp [getRegion, Dict.get_set, hrg, hnew, getItem_get_ne r hdd]
        · simp [getRegion, Dict.get_set, hrr]
      | ok u =>
        cases u
        obtain ⟨h1, rfl⟩ := clearItem_ok hc
        simp only
        refine ⟨by simp [h1], ?_, ?_⟩
        · intro _ i test t
          apply enter_runs
          intro it hit
          simp [getRegion, Dict.get_set] at hit
          rw [← hit]
        · intro rid' dig' hne hd'
          have hk : storeKey pfx rid' dig' ≠ storeKey pfx rid dig := by
            intro hk; exact hne (storeKey_inj hp hd' hd hk)
          unfold itemView
          rw [Dict.get_del_ne _ hk]
          by_cases hrr : rid' = rid
          · subst hrr
            have hdd : dig' ≠ dig := fun h => hne ⟨rfl, h⟩
            simp [getRegion, Dict.get_set, hrg, hnew, getItem_get_ne r hdd, hdd]
          · simp [getRegion, Dict.get_set, hrr]

/-- Finding: after a first rendering whose body raised, the item exists but was
never stored, and `refreshCache()` raises KeyError instead of refreshing. -/
theorem C17_refresh_raises_counterexample :
    let t : Times := ⟨10, 10, 10⟩
    let s := runEv c!"p" State.init [.enter c!"menu" c!"0a" none false t, .write c!"x", .abort]
    (refreshCache c!"p" s none none).1 = .error .keyError := by decide

/-! Concrete instances. -/

/-- A first rendering of a region, then an entry that only shows it. -/
example :
    let t : Times := ⟨10, 10, 10⟩
    let s := runEv c!"p" State.init
      [.enter c!"menu" c!"0a" (some 5) false t, .write c!"hi", .leave 11]
    s.text = c!"hi" ∧ s.stack = [] ∧
    (enter c!"p" s c!"menu" c!"0a" (some 5) false ⟨15, 15, 15⟩).1 = false ∧
    (enter c!"p" s c!"menu" c!"0a" (some 5) false ⟨15, 15, 15⟩).2.text = c!"hihi" ∧
    (enter c!"p" s c!"menu" c!"0a" (some 5) false ⟨16, 16, 16⟩).1 = true ∧
    (refreshCache c!"p" s none none).1 = .ok () := by decide

/-- The hypotheses of `C15_interval` on a body with a nested region. -/
example :
    let s := State.init
    let s1 := (enter c!"p" s c!"menu" c!"0a" (some 5) false ⟨10, 10, 10⟩).2
    let body : List Ev := [.write c!"a", .enter c!"inner" c!"0b" none false ⟨10, 10, 10⟩,
      .write c!"b", .leave 11, .write c!"c"]
    (enter c!"p" s c!"menu" c!"0a" (some 5) false ⟨10, 10, 10⟩).1 = true ∧
    AllElsewhere c!"p" c!"menu" c!"0a" s1 body ∧
    (∃ buf fs, (runEv c!"p" s1 body).stack = ⟨c!"menu", c!"0a", buf⟩ :: fs) ∧
    (leave c!"p" (runEv c!"p" s1 body) 12).text = c!"abc" := by
  refine ⟨by decide, ?_, ⟨c!"abc", [], by decide⟩, by decide⟩
  refine ⟨trivial, ⟨by unfold Digest; decide, by decide⟩, trivial, ?_, trivial, trivial⟩
  intro f fs h
  have : f = ⟨c!"inner", c!"0b", c!"b"⟩ := by
    have h2 : (runEv c!"p" (enter c!"p" State.init c!"menu" c!"0a" (some 5) false ⟨10, 10, 10⟩).2
      [.write c!"a", .enter c!"inner" c!"0b" none false ⟨10, 10, 10⟩, .write c!"b"]).stack.head? =
        some ⟨c!"inner", c!"0b", c!"b"⟩ := by decide
    simp only [runEv] at h2
    rw [h] at h2
    simpa using h2
  subst this
  decide

end Cheetah.Cache
