import Verif.Lemmas.RefsPut
/-
References stay valid: finding or making the references Group and the canonical empty.
-/
namespace HS
open Spec

/-- Old objects with the same body, and Groups. -/
def OnlyGroups (s s' : St) : Prop := ∀ (p : Nat) (ob : Obj), s'.heap[p]? = some ob → (∃ l, ob.body = .group l) ∨ s.heap[p]? = some ob

theorem OnlyGroups.trans {s s1 s2 : St} (h1 : OnlyGroups s s1) (h2 : OnlyGroups s1 s2) : OnlyGroups s s2 := by
  intro p ob h
  rcases h2 p ob h with h | h
  · exact Or.inl h
  · exact h1 p ob h

theorem unlinkPath_groups (cs : List Str) (g : Nat) (s s' : St) (res : Res Unit) (h : unlinkPath g cs s = (res, s')) : OnlyGroups s s' := by
  induction cs generalizing g s with
  | nil => simp only [unlinkPath, raise] at h; cases h; exact fun _ _ h => Or.inr h
  | cons c cs ih =>
    cases cs with
    | nil =>
      rw [unlinkPath] at h
      rcases unlink_run g c s with ⟨e, he⟩ | ⟨he, _⟩
      · rw [he] at h; cases h; exact fun _ _ h => Or.inr h
      · rw [he] at h; cases h
        intro p ob hp
        change (s.heap.update _ _)[p]? = _ at hp
        rw [getElem?_update] at hp
        split at hp
        · rename_i hpg
          cases ho : s.heap[g]? with
          | none => rw [ho] at hp; cases hp
          | some o =>
            rw [ho] at hp; cases hp
            obtain ⟨at', bo⟩ := o
            cases bo with
            | group l => exact Or.inl ⟨_, rfl⟩
            | dset a f => rw [hpg]; exact Or.inr ho
        · exact Or.inr hp
    | cons c2 cs =>
      rw [unlinkPath] at h
      rotate_left
      · intro hh; cases hh
      rcases getLink_run g c s with hh | ⟨e, hh⟩
      · rw [run_bind_ok hh] at h
        cases hl : hlook s.heap g c with
        | some g' => rw [hl] at h; exact ih g' s h
        | none => rw [hl] at h; simp only [raise] at h; cases h; exact fun _ _ h => Or.inr h
      · rw [run_bind_err hh] at h
        cases h
        exact fun _ _ h => Or.inr h

/-- Making the references Group when there is none. -/
theorem RI.make {x : Ctx} {L : Nat → Prop} {s s' : St} (hR : RI x L s) (hno : ∀ r, ¬ RefTo x s r) (hi : Inv x s') (ht : Tree s'.heap) (hcan : s'.canon = none)
    (hg : OnlyGroups s s') (hA : ∀ rg q, resolve s'.heap 0 (refsComps x.o) = some rg → ¬ LinkAt s'.heap rg p!"a" q) : RI x L s' ∧ KeepRefs x s s' := by
  have hk : KeepRefs x s s' := fun rg nm q h1 h2 => (hno q ⟨rg, nm, h1, h2⟩).elim
  refine ⟨⟨hi, ht, ?_, fun rg q h1 h2 => (hA rg q h1 h2).elim, fun c hc => by rw [hcan] at hc; cases hc⟩, hk⟩
  intro p ob h1 h2 a f r h3 h4 h5
  rcases hg p ob h1 with ⟨l, hl⟩ | hold
  · rw [hl] at h3; cases h3
  · exact (hno r (hR.vals p ob hold h2 a f r h3 h4 h5)).elim

theorem ensureRefs_ri {x : Ctx} {L : Nat → Prop} {s s' : St} {res : Res Nat} (hR : RI x L s) (h : ensureRefs x s = (res, s')) : RI x L s' ∧ KeepRefs x s s' := by
  have hst := (ensureRefs_spec hR.inv h).1
  have hi := hR.inv
  have htr := tree_step hR.tree hst noD_zero
  unfold ensureRefs at h
  change (match s.refs with | some r => (pure r : M Nat) | none => _) s = _ at h
  cases hs : s.refs with
  | some r =>
    rw [hs] at h
    cases h
    exact ⟨hR, .refl⟩
  | none =>
    rw [hs] at h
    have hcan : s.canon = none := by
      cases hc : s.canon with
      | none => rfl
      | some c => obtain ⟨rg, h1, _⟩ := hR.can c hc; rw [hs] at h1; cases h1
    have hmake : ∀ (s1 : St), (∀ r, ¬ RefTo x s r) → OnlyGroups s s1 → Step x (ChainA x s) noD s s1 → SameBk s s1 → (∀ p k q, LinkAt s1.heap p k q → LinkAt s.heap p k q) →
        (createPath 0 (refsComps x.o) >>= fun r => modSt (fun s => { s with refs := some r, created := true }) >>= fun _ => (pure r : M Nat)) s1 = (res, s') →
        RI x L s' ∧ KeepRefs x s s' := by
      intro s1 hno hog hst1 hbk hlk hrun
      rcases bind_run (createPath 0 (refsComps x.o)) (fun r => modSt (fun s => { s with refs := some r, created := true }) >>= fun _ => (pure r : M Nat)) s1
        with ⟨a, s2, e1, e2⟩ | ⟨e, s2, e1, e2⟩
      · have h' := e2.symm.trans hrun
        obtain ⟨i1, i2, i4, i5, i3⟩ := createPath_spec (x := x) (refsComps x.o) [] 0 s1 s2 _ hst1.inv (hbk.1.trans hs) rfl rfl e1
        obtain ⟨j1, j2, j3, j4⟩ := i3 a rfl
        change ((Except.ok a : Res Nat), ({ s2 with refs := some a, created := true } : St)) = _ at h'
        cases h'
        refine hR.make hno hst.inv htr ((hbk.trans i2).2.2.2.2.trans hcan) (fun p ob h => (hog.trans (createPath_groups _ _ _ _ _ e1)) p ob h) ?_
        intro rg q h1 h2
        change resolve s2.heap 0 _ = _ at h1
        rw [j1] at h1; cases h1
        change aget (linksOf s2.heap _) _ = _ at h2
        rw [j3] at h2; cases h2
      · have h' := e2.symm.trans hrun
        obtain ⟨i1, i2, i4, i5, _⟩ := createPath_spec (x := x) (refsComps x.o) [] 0 s1 s2 _ hst1.inv (hbk.1.trans hs) rfl rfl e1
        cases h'
        refine hR.make hno hst.inv htr ((hbk.trans i2).2.2.2.2.trans hcan) (hog.trans (createPath_groups _ _ _ _ _ e1)) ?_
        intro rg q h1 h2
        rcases i5 rg _ q h2 with hl | ⟨pre, h3, h4⟩
        · have hl0 := hlk _ _ _ hl
          exact hno q ⟨rg, _, hst.fr.resolve_old _ (plainComps x) rg h1 (linkAt_lt hl0), hl0⟩
        · have := hst.inv.acyc pre (refsComps x.o) rg (prefix_of_snoc h3) (List.prefix_refl _) h4 h1
          have h5 := h3.length_le
          rw [← this] at h5
          simp at h5
          omega
    cases hres : resolve s.heap 0 (refsComps x.o) with
    | none =>
      rw [hres] at h
      exact hmake s (fun r ⟨rg, nm, h1, _⟩ => by rw [hres] at h1; cases h1) (fun _ _ h => Or.inr h) (Step.refl hi) (SameBk.refl s) (fun _ _ _ h => h) h
    | some r =>
      rw [hres] at h
      by_cases hg : isGroup s.heap r = true
      · simp only [hg, if_true] at h
        change ((Except.ok r : Res Nat), ({ s with refs := some r, created := false } : St)) = _ at h
        cases h
        refine ⟨⟨hst.inv, htr, hR.vals, hR.canA, ?_⟩, fun _ _ _ h1 h2 => ⟨h1, h2⟩⟩
        intro c hc
        change s.canon = some c at hc
        rw [hcan] at hc; cases hc
      · have hno : ∀ q, ¬ RefTo x s q := by
          rintro q ⟨rg, nm, h1, h2⟩
          rw [hres] at h1; cases h1
          unfold LinkAt at h2
          rw [linksOf_obj] at h2
          unfold isGroup at hg
          cases ho : s.heap[r]? with
          | none => rw [ho] at h2; cases h2
          | some ob =>
            rw [ho] at h2 hg
            obtain ⟨at', bo⟩ := ob
            cases bo with
            | group l => exact hg rfl
            | dset a f => cases h2
        simp only [hg] at h
        rcases bind_run (unlinkPath 0 (refsComps x.o)) (fun _ => createPath 0 (refsComps x.o) >>= fun r =>
          modSt (fun s => { s with refs := some r, created := true }) >>= fun _ => (pure r : M Nat)) s with ⟨a, s2, e1, e2⟩ | ⟨e, s2, e1, e2⟩
        · have h' := e2.symm.trans h
          obtain ⟨u1, u2, u3⟩ := unlinkPath_spec (x := x) (refsComps x.o) [] 0 s s2 _ hi hs rfl rfl e1
          exact hmake s2 hno (unlinkPath_groups _ _ _ _ _ e1) u1 u2 u3 h'
        · have h' := e2.symm.trans h
          obtain ⟨u1, u2, u3⟩ := unlinkPath_spec (x := x) (refsComps x.o) [] 0 s s2 _ hi hs rfl rfl e1
          cases h'
          refine hR.make hno hst.inv htr (u2.2.2.2.2.trans hcan) (unlinkPath_groups _ _ _ _ _ e1) ?_
          intro rg q h1 h2
          have hl0 := u3 _ _ _ h2
          exact hno q ⟨rg, _, hst.fr.resolve_old _ (plainComps x) rg h1 (linkAt_lt hl0), hl0⟩

theorem canonObj_canon : isCanon canonObj = .ok true := by rfl

theorem ensureCanon_ri {x : Ctx} {L : Nat → Prop} {s s' : St} {res : Res Nat} {r : Nat} (hR : RI x L s) (hr : s.refs = some r) (h : ensureCanon r s = (res, s')) :
    RI x L s' ∧ KeepRefs x s s' ∧ ∀ c, res = .ok c → RefTo x s' c := by
  have hst := ensureCanon_spec hR.inv hr h
  have hres := (hR.inv.refs r hr).1
  unfold ensureCanon at h
  change (match s.canon with | some c => (pure c : M Nat) | none => _) s = _ at h
  cases hc : s.canon with
  | some c =>
    rw [hc] at h; cases h
    refine ⟨hR, .refl, ?_⟩
    intro c' h
    cases h
    obtain ⟨rg, h1, h2⟩ := hR.can c hc
    exact ⟨rg, _, (hR.inv.refs rg h1).1, h2⟩
  | none =>
    rw [hc] at h
    have hmake : (createObj r p!"a" canonObj >>= fun c => modSt (fun s => { s with canon := some c }) >>= fun _ => (pure c : M Nat)) s = (res, s') →
        RI x L s' ∧ KeepRefs x s s' ∧ ∀ c, res = .ok c → RefTo x s' c := by
      intro hrun
      rcases createObj_run r p!"a" canonObj s with ⟨e, he⟩ | ⟨he, _, _, h3, _, h5⟩
      · rw [run_bind_err he] at hrun; cases hrun
        exact ⟨hR, .refl, fun c h => by cases h⟩
      · rw [run_bind_ok he] at hrun
        change ((Except.ok s.heap.length : Res Nat), ({ s with heap := createHeap s.heap r p!"a" canonObj, canon := some s.heap.length } : St)) = _ at hrun
        cases hrun
        have st2 := createObj_step hR.inv r p!"a" canonObj rfl h3 h5 (fun _ => offPath_refs hR.inv hres _) (reserved_a hR.inv r)
        obtain ⟨h6, h7⟩ := hR.create st2 noD_zero h3 h5 rfl (by
          intro a f q h8 h9
          cases h8
          cases h9) (fun _ _ => canonObj_canon)
        have hl : LinkAt (createHeap s.heap r p!"a" canonObj) r p!"a" s.heap.length := (linkAt_createHeap _ _ _ _ h3 h5 rfl _ _ _).mpr (Or.inr ⟨rfl, rfl, rfl⟩)
        have hr2 := (st2.inv.refs r hr).1
        refine ⟨⟨hst.inv, h6.tree, h6.vals, h6.canA, ?_⟩, h7, ?_⟩
        · intro c hc
          cases hc
          exact ⟨r, hr, hl⟩
        · intro c hc
          cases hc
          exact ⟨r, _, hr2, hl⟩
    cases hl : hlook s.heap r p!"a" with
    | none => rw [hl] at h; exact hmake h
    | some c =>
      rw [hl] at h
      dsimp only at h
      have hla : LinkAt s.heap r p!"a" c := by rw [hlook_plain _ _ _ a_ne_dot] at hl; exact hl
      obtain ⟨ob, ho, hb⟩ := hR.canA r c hres hla
      rw [ho] at h
      dsimp only at h
      have : (liftRes (isCanon ob) : M Bool) s = (.ok true, s) := by rw [hb]; rfl
      rw [run_bind_ok this] at h
      change ((Except.ok c : Res Nat), ({ s with canon := some c } : St)) = _ at h
      cases h
      refine ⟨⟨hst.inv, hR.tree, hR.vals, hR.canA, ?_⟩, fun _ _ _ h1 h2 => ⟨h1, h2⟩, ?_⟩
      · intro c' hc
        cases hc
        exact ⟨r, hr, hla⟩
      · intro c' hc
        cases hc
        exact ⟨r, _, hres, hla⟩

theorem drawName_ri {x : Ctx} {L : Nat → Prop} {s s' : St} {res : Res Str} {r n : Nat} (hR : RI x L s) (hcr : s.created = false) (h : drawName x r n s = (res, s')) :
    RI x L s' ∧ KeepRefs x s s' := by
  have hc : s'.canon = s.canon := by
    induction n generalizing s with
    | zero => simp only [drawName, raise] at h; cases h; rfl
    | succ n ih =>
      rw [drawName] at h
      rw [run_getSt, run_modSt] at h
      split at h
      · have st : Step x noA noD s { s with rpos := s.rpos + 1 } :=
          meta_step (s' := { s with rpos := s.rpos + 1 }) hR.inv rfl rfl rfl (Nat.le_refl _) (Nat.le_succ _) (fun h => by rw [hcr] at h; cases h) (fun _ => rfl) (fun _ h => h) hR.inv.can
        exact ih (s := { s with rpos := s.rpos + 1 }) (hR.meta st.inv rfl rfl rfl).1 hcr h
      · rw [run_pure] at h; cases h; rfl
  obtain ⟨h1, h2, _, _, h3, _⟩ := drawName_spec hR.inv hcr h
  exact hR.meta h1.inv h2 h3 hc

theorem nextName_ri {x : Ctx} {L : Nat → Prop} {s s' : St} {res : Res Str} {r : Nat} (hR : RI x L s) (hr : s.refs = some r) (h : nextName x s = (res, s')) :
    RI x L s' ∧ KeepRefs x s s' := by
  have hst := (nextName_spec hR.inv hr h).1
  unfold nextName at h
  change (if s.created then _ else _ : M Str) s = _ at h
  cases hcr : s.created with
  | true =>
    rw [hcr] at h
    change ((Except.ok (hexStr s.counter) : Res Str), ({ s with counter := s.counter + 1 } : St)) = _ at h
    cases h
    exact hR.meta hst.inv rfl rfl rfl
  | false =>
    rw [hcr] at h
    change (ensureRefs x >>= fun r => ensureCanon r >>= fun _ => drawName x r x.hang) s = _ at h
    have he : ensureRefs x s = (.ok r, s) := by
      unfold ensureRefs
      change (match s.refs with | some r => (pure r : M Nat) | none => _) s = _
      rw [hr]; rfl
    rw [run_bind_ok he] at h
    rcases bind_run (ensureCanon r) (fun _ => drawName x r x.hang) s with ⟨a, s1, e1, e2⟩ | ⟨e, s1, e1, e2⟩
    · have h' := e2.symm.trans h
      have st := ensureCanon_spec hR.inv hr e1
      obtain ⟨h1, h2, _⟩ := ensureCanon_ri hR hr e1
      obtain ⟨h3, h4⟩ := drawName_ri h1 (by rw [(st.fr.refs r hr).2]; exact hcr) h'
      exact ⟨h3, h2.trans h4⟩
    · have h' := e2.symm.trans h
      cases h'
      obtain ⟨h1, h2, _⟩ := ensureCanon_ri hR hr e1
      exact ⟨h1, h2⟩

end HS
