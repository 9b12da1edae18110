import Verif.Lemmas.ProgressData
/-
Writing succeeds: dicts, structured arrays, and everything together.
-/
namespace HS
open Spec

variable {K : Nat → Prop}

/-- A Group that things can be written to. -/
structure GroupOk (K : Nat → Prop) (x : Ctx) (s : St) (g : Nat) : Prop where
  go : Go K x s
  lt : g < s.heap.length
  sep : Sep x s g
  grp : isGroup s.heap g = true

theorem getGroup_go {x : Ctx} {s : St} {g : Nat} {name : Str} (hs : Go K x s) (hp : PlaceOk x s g name) : ∃ p s1, getGroup g name s = (.ok p, s1) ∧ GroupOk K x s1 p := by
  suffices h : ∃ p s1, getGroup g name s = (.ok p, s1) ∧ Go K x s1 ∧ isGroup s1.heap p = true by
    obtain ⟨p, s1, h1, h2, h3⟩ := h
    obtain ⟨st, hg⟩ := getGroup_spec hp.pre h1
    obtain ⟨t, hsep⟩ := hg p rfl
    exact ⟨p, s1, h1, h2, t.lt, hsep, h3⟩
  unfold getGroup
  rw [run_bind_ok (getLink_ok hp.enc), hlook_plain _ _ _ hp.pre.nd]
  have mk : ∀ s1 : St, Go K x s1 → PlaceOk x s1 g name → aget (linksOf s1.heap g) name = none → ∃ p s2, createGroup g name s1 = (.ok p, s2) ∧ Go K x s2 ∧ isGroup s2.heap p = true := by
    intro s1 h1 h2 h3
    obtain ⟨s2, h4, h5⟩ := createObj_go (o := ⟨[], .group []⟩) h1 h2 h3 rfl classOk_nil
    have hrun := createObj_runs (o := ⟨[], .group []⟩) (s := s1) h2.enc h2.ne h2.grp h2.pre.nd h3
    rw [hrun] at h4
    cases h4
    exact ⟨_, _, hrun, h5, isGroup_new _ _ _⟩
  cases hl : aget (linksOf s.heap g) name with
  | none => exact mk s hs hp hl
  | some q =>
    show ∃ p s1, (getSt >>= fun s => if isGroup s.heap q then pure q else unlink g name >>= fun _ => createGroup g name : M Nat) s = (.ok p, s1) ∧ Go K x s1 ∧ isGroup s1.heap p = true
    rw [run_getSt]
    by_cases hg : isGroup s.heap q = true
    · rw [if_pos hg]
      exact ⟨q, s, rfl, hs, hg⟩
    · rw [if_neg hg]
      obtain ⟨s1, h1, h2, h3, h4⟩ := unlink_go hs hp hl
      rw [run_bind_ok h1]
      exact mk s1 h2 h3 h4

/-- An item of a Group that can be written. -/
structure ItemOk (x : Ctx) (wr : Wr) (i : Str × Val) : Prop where
  nd : i.1 ≠ [dot]
  enc : nameOk i.1 = true
  ne : i.1 ≠ []
  ascii : x.o.matlab = true → Grouped i.2 → Ascii i.1
  go : WrGo x wr i.2

theorem GroupOk.place {x : Ctx} {s : St} {g : Nat} (h : GroupOk K x s g) {wr : Wr} {i : Str × Val} (hi : ItemOk x wr i) : PlaceOk x s g i.1 :=
  ⟨h.sep.pre h.go.inv h.lt hi.nd, h.grp, hi.enc, hi.ne⟩

theorem GroupOk.keep {x : Ctx} {A D} {s s1 : St} {g : Nat} (h : GroupOk K x s g) (st : Step x A D s s1) (h1 : Go K x s1) (hg : isGroup s1.heap g = true) : GroupOk K x s1 g :=
  ⟨h1, Nat.lt_of_lt_of_le h.lt st.fr.len, h.sep.keep st.fr h.go.inv h.lt, hg⟩

/-- One item of a Group. -/
theorem item_go {x : Ctx} {wr : Wr} (hk : WrKit x wr) {g : Nat} {gname : Str} (hgn : x.o.matlab = true → Ascii gname) {i : Str × Val} (hi : ItemOk x wr i) {s : St}
    (hs : GroupOk K x s g) : Goes K x (wr g gname i.1 i.2) s (fun ob s' => GroupOk K x s' g ∧ ∀ p, ob = some p → p < s'.heap.length) := by
  have hp := hs.place hi
  refine (hi.go _ s g gname i.1 hs.go hp (fun hm hg => ⟨hgn hm, hi.ascii hm hg⟩)).mono ?_
  intro ob s' e h
  have po := hk.ok s g gname i.1 i.2 s' _ hp.pre e
  exact ⟨hs.keep po.step h (Pres.run (hk.grp g g gname i.1 i.2) e hs.grp), fun p hp' => (po.ok p (by rw [hp'])).lt⟩

theorem GroupOk.attrs {x : Ctx} {s s1 : St} {g p : Nat} {new : List (Str × AIn)} {d : Bool} {r : Res Unit} (h : GroupOk K x s g) (h1 : Go K x s1)
    (e : setAttrsM p new d s = (r, s1)) : GroupOk K x s1 g :=
  h.keep (setAttrsM_step h.go.inv p new d e) h1 (Pres.run (Pres.setAttrs (group_elem x.o g)) e h.grp)

theorem writeItems_go {x : Ctx} {wr : Wr} (hk : WrKit x wr) {g : Nat} {gname : Str} (hgn : x.o.matlab = true → Ascii gname) {items : List (Str × Val)}
    (hi : ∀ i ∈ items, ItemOk x wr i) {s : St} (hs : GroupOk K x s g) : Goes K x (writeItems x wr g gname items) s (fun _ s' => GroupOk K x s' g) := by
  induction items generalizing s with
  | nil => exact Goes.pure hs
  | cons i items ih =>
    obtain ⟨k, v⟩ := i
    have hi' : ∀ i ∈ items, ItemOk x wr i := fun i h => hi i (by simp [h])
    rw [writeItems]
    refine (item_go hk hgn (hi (k, v) (by simp)) hs).bind ?_
    intro ob s1 e1 ⟨h1, h2⟩
    cases ob with
    | none => exact ih hi' h1
    | some p =>
      obtain ⟨s2, e2, h3⟩ := setH5Path_go (p := p) h1.go hgn
      refine (Goes.ok e2 (P := fun _ s' => GroupOk K x s' g) (h1.keep (setH5Path_step h1.go.inv p _ e2) h3 (Pres.run (Pres.setH5Path (group_elem x.o g)) e2 h1.grp))).bind ?_
      intro _ s3 _ h4
      exact ih hi' h4

theorem writeFields_go {x : Ctx} {wr : Wr} (hk : WrKit x wr) {g : Nat} {gname : Str} {others : Bool} (hgn : x.o.matlab = true → Ascii gname) {items : List (Str × Val)}
    (hi : ∀ i ∈ items, ItemOk x wr i) {s : St} (hs : GroupOk K x s g) : Goes K x (writeFields x wr g gname others items) s (fun _ s' => GroupOk K x s' g) := by
  induction items generalizing s with
  | nil => exact Goes.pure hs
  | cons i items ih =>
    obtain ⟨k, v⟩ := i
    have hi' : ∀ i ∈ items, ItemOk x wr i := fun i h => hi i (by simp [h])
    rw [writeFields]
    refine (item_go hk hgn (hi (k, v) (by simp)) hs).bind ?_
    intro ob s1 e1 ⟨h1, h2⟩
    cases ob with
    | none => exact ih hi' h1
    | some p =>
      have hat : AttrsOk (if x.o.matlab = true then [(p!"H5PATH", AIn.string gname)] else []) := by
        split
        · rename_i hm
          exact .cons (string_ok (hgn hm)) (by decide) .nil
        · exact .nil
      obtain ⟨s2, e2, h3⟩ := setAttrsM_go (d := others) h1.go (h2 p rfl) hat
      refine (Goes.ok e2 (P := fun _ s' => GroupOk K x s' g) (h1.attrs h3 e2)).bind ?_
      intro _ s3 _ h4
      exact ih hi' h4

theorem deleteOthers_go {x : Ctx} {s : St} {g : Nat} (hs : GroupOk K x s g) (b : Bool) (names : List Str) :
    ∃ s1, (if b then deleteOthers g names else pure () : M Unit) s = (.ok (), s1) ∧ GroupOk K x s1 g := by
  cases b with
  | false => exact ⟨s, rfl, hs⟩
  | true =>
    have st := deleteOthers_step hs.go.inv g hs.sep names
    have hf := filter_go (g := g) (keep := fun k => names.contains k) hs.go
    refine ⟨_, rfl, hs.keep st ⟨st.inv, hf.1, hf.2, hs.go.mine⟩ ?_⟩
    exact isGroup_update (fun o _ ⟨l, hl⟩ => ⟨_, by unfold Obj.mapLinks; rw [hl]⟩) g hs.grp

theorem ascii_join {a b : Str} (ha : Ascii a) (hb : Ascii b) : Ascii (joinName a b) := by
  have h1 : Ascii [slash] := ascii_all (by rfl)
  unfold joinName
  split
  · exact ha
  · split
    · exact ascii_append h1 hb
    · exact ascii_append ha (ascii_append h1 hb)

theorem writeDict_go {x : Ctx} {wr : Wr} (hk : WrKit x wr) {g : Nat} {gname name : Str} {keys vals : List Val} {struct : Bool} {ts : Str}
    (hat : AttrsOk (dictAttrs x.o (keyInfos keys) struct ts)) (hi : ∀ i ∈ dictItems x.o keys vals, ItemOk x wr i) {s : St} (hs : Go K x s) (hp : PlaceOk x s g name)
    (ha : x.o.matlab = true → Ascii gname ∧ Ascii name) : Goes K x (writeDict x wr g gname name keys vals struct ts) s (fun _ s' => Go K x s') := by
  have hgn : x.o.matlab = true → Ascii (joinName gname name) := fun hm => ascii_join (ha hm).1 (ha hm).2
  unfold writeDict
  dsimp only
  obtain ⟨g2, s1, e1, h1⟩ := getGroup_go hs hp
  refine (Goes.ok e1 (P := fun g2 s' => GroupOk K x s' g2) h1).bind ?_
  intro g2 s1 _ h1
  obtain ⟨s2, e2, h2⟩ := setAttrsM_go (d := true) h1.go h1.lt hat
  refine (Goes.ok e2 (P := fun _ s' => GroupOk K x s' g2) (h1.attrs h2 e2)).bind ?_
  intro _ s2 _ h2
  obtain ⟨s3, e3, h3⟩ := deleteOthers_go h2 ((keyInfos keys).isNone || x.o.deleteUnused) ((dictItems x.o keys vals).map (·.1))
  refine (Goes.ok e3 (P := fun _ s' => GroupOk K x s' g2) h3).bind ?_
  intro _ s3 _ h3
  refine Goes.bind (P := fun _ s' => s' = s3) ?_ ?_
  · split
    · rename_i hm
      rw [asciiEnc_ok (hgn hm)]
      exact Goes.ok (a := joinName gname name) rfl rfl
    · exact Goes.pure rfl
  · intro _ s4 _ h4
    subst h4
    refine (writeItems_go hk hgn hi h3).bind ?_
    intro _ s5 _ h5
    exact Goes.pure h5.go

theorem writeGroup_go {x : Ctx} {wr : Wr} (hk : WrKit x wr) {g : Nat} {gname name : Str} {esc : List Str} {others : Bool} {items : List (Str × Val)} {at' : List (Str × AIn)}
    (hat : AttrsOk at') (hi : ∀ i ∈ items, ItemOk x wr i) {s : St} (hs : Go K x s) (hp : PlaceOk x s g name)
    (ha : x.o.matlab = true → Ascii gname ∧ Ascii name) : Goes K x (writeGroup x wr g gname name esc others items at') s (fun _ s' => Go K x s') := by
  have hgn : x.o.matlab = true → Ascii (joinName gname name) := fun hm => ascii_join (ha hm).1 (ha hm).2
  unfold writeGroup
  obtain ⟨g2, s1, e1, h1⟩ := getGroup_go hs hp
  refine (Goes.ok e1 (P := fun g2 s' => GroupOk K x s' g2) h1).bind ?_
  intro g2 s1 _ h1
  obtain ⟨s3, e3, h3⟩ := deleteOthers_go h1 x.o.deleteUnused esc
  refine (Goes.ok e3 (P := fun _ s' => GroupOk K x s' g2) h3).bind ?_
  intro _ s3 _ h3
  refine (writeFields_go hk hgn hi h3).bind ?_
  intro _ s4 _ h4
  obtain ⟨s5, e5, h5⟩ := setAttrsM_go (d := true) h4.go h4.lt hat
  refine (Goes.ok e5 (P := fun _ s' => Go K x s') h5).bind ?_
  intro _ s6 _ h6
  exact Goes.pure h6

theorem escape_keeps {t e : Str} (h : escapePath t = .ok e) : (t ≠ [] → e ≠ []) ∧ (Scalars t → Scalars e) ∧ (Ascii t → Ascii e) := by
  rw [escapePath_eq] at h
  have htd : t.takeWhile (· == dot) ++ t.dropWhile (· == dot) = t := List.takeWhile_append_dropWhile
  have key : ∀ c ∈ e, c ∈ t ∨ c < 128 := by
    intro c hc
    cases h
    rcases List.mem_append.mp hc with hc | hc
    · obtain ⟨d, _, hd⟩ := List.mem_flatMap.mp hc
      exact Or.inr (ascii_all (s := p!"\\x2e") (by rfl) c hd)
    · obtain ⟨d, h1, hd⟩ := List.mem_flatMap.mp hc
      have hdt : d ∈ t := by rw [← htd]; exact List.mem_append_right _ h1
      unfold escChar at hd
      split at hd
      · exact Or.inr (ascii_all (s := p!"\\x00") (by rfl) c hd)
      · split at hd
        · exact Or.inr (ascii_all (s := p!"\\x2f") (by rfl) c hd)
        · split at hd
          · exact Or.inr (ascii_all (s := p!"\\\\") (by rfl) c hd)
          · rw [List.mem_singleton.mp hd]; exact Or.inl hdt
  refine ⟨?_, fun hs c hc => ?_, fun hs c hc => ?_⟩
  · intro ht he
    subst he
    have h' := Except.ok.inj h
    obtain ⟨h1, h2⟩ := List.append_eq_nil_iff.mp h'
    refine ht ?_
    rw [← htd]
    have e1 : t.takeWhile (· == dot) = [] := by
      cases ht' : t.takeWhile (· == dot) with
      | nil => rfl
      | cons a l => rw [ht'] at h1; simp at h1
    have e2 : t.dropWhile (· == dot) = [] := by
      cases ht' : t.dropWhile (· == dot) with
      | nil => rfl
      | cons a l =>
        rw [ht', List.flatMap_cons] at h2
        have := (List.append_eq_nil_iff.mp h2).1
        unfold escChar at this
        split at this
        · simp at this
        · split at this
          · simp at this
          · split at this <;> simp at this
    rw [e1, e2]; rfl
  · rcases key c hc with h | h
    · exact hs c h
    · omega
  · rcases key c hc with h | h
    · exact hs c h
    · exact h

end HS
