import Verif.Lemmas.RefNames
import Verif.Lemmas.RtObj
/-
What `write_object_array` returns.
-/
namespace HS
open Spec

theorem matlabClass_none (dt : DT) : dt.matlabClass = none ↔ dt = .f16 ∨ (∃ r i d, dt = .crec r i d) ∨ ∃ o s n t, dt = .comp o s n t := by
  cases dt <;> simp [DT.matlabClass]

theorem writeNp_none {x : Ctx} {g : Nat} {name : Str} {c : Cont} {a : Arr} {ts : Str} {s s' : St} {ob : Option Nat}
    (h : writeNp x g name c a ts s = (.ok ob, s')) : ob = none ↔ x.o.matlab = true ∧ x.o.action = .discard ∧ a.dt.matlabClass = none := by
  unfold writeNp at h
  by_cases h1 : x.o.matlab = true ∧ a.dt.matlabClass = none ∧ x.o.action = .error
  · rw [if_pos h1] at h; cases h
  · rw [if_neg h1] at h
    by_cases h2 : x.o.matlab = true ∧ a.dt.matlabClass = none ∧ x.o.action = .discard
    · rw [if_pos h2, run_pure] at h
      cases h
      exact ⟨fun _ => ⟨h2.1, h2.2.2, h2.2.1⟩, fun _ => rfl⟩
    · rw [if_neg h2] at h
      constructor
      · rintro rfl
        rcases bind_run (liftRes (prepare x.o c a)) _ s with ⟨d, s1, e1, e2⟩ | ⟨e, s1, e1, e2⟩
        · rw [e2] at h
          rcases bind_run (putDataset g name d (filtersFor x.o d)) _ s1 with ⟨p, s2, e3, e4⟩ | ⟨e, s2, e3, e4⟩
          · rw [e4] at h
            rcases bind_run (setAttrsM p (npAttrs x.o c a.dt a.shape a.isEmpty (h5Store d).dt ts) true) (fun _ => (pure (some p) : M (Option Nat))) s2 with ⟨u, s3, e5, e6⟩ | ⟨e, s3, e5, e6⟩
            · rw [e6, run_pure] at h; cases h
            · rw [e6] at h; cases h
          · rw [e4] at h; cases h
        · rw [e2] at h; cases h
      · rintro ⟨a1, a2, a3⟩
        exact absurd ⟨a1, a3, a2⟩ h2

theorem writeNpObj_some {x : Ctx} {wr : Wr} {g : Nat} {name : Str} {c : Cont} {shape : List Nat} {elems : List Val} {ts : Str} {s s' : St} {ob : Option Nat}
    (h : writeNpObj x wr g name c shape elems ts s = (.ok ob, s')) : ob ≠ none := by
  rintro rfl
  unfold writeNpObj at h
  generalize (if x.o.reverse = true then _ else elems) = el at h
  generalize (if x.o.reverse = true then (if x.o.atleast2d = true then atleast2dShape shape else shape).reverse else _) = sh' at h
  generalize (if (x.o.storeShape && prodN shape == 0) = true then _ else _ : M Arr) = m at h
  rcases bind_run m _ s with ⟨d, s1, e1, e2⟩ | ⟨e, s1, e1, e2⟩
  · rw [e2] at h
    rcases bind_run (putDataset g name d (filtersFor x.o d)) _ s1 with ⟨p, s2, e3, e4⟩ | ⟨e, s2, e3, e4⟩
    · rw [e4] at h
      rcases bind_run (setAttrsM p (npAttrs x.o c .object shape (prodN shape == 0) d.dt ts) true) (fun _ => (pure (some p) : M (Option Nat))) s2 with ⟨u, s3, e5, e6⟩ | ⟨e, s3, e5, e6⟩
      · rw [e6, run_pure] at h; cases h
      · rw [e6] at h; cases h
    · rw [e4] at h; cases h
  · rw [e2] at h; cases h

theorem run_bind_some {α : Type} {m : M α} {k : α → M (Option Nat)} {s s' : St} (h : (m >>= k) s = (.ok none, s')) : ∃ a s1, k a s1 = (.ok none, s') := by
  rcases bind_run m k s with ⟨a, s1, _, e2⟩ | ⟨e, s1, _, e2⟩
  · exact ⟨a, s1, e2.symm.trans h⟩
  · rw [e2] at h; cases h

theorem writeDict_some {x : Ctx} {wr : Wr} {g : Nat} {gname name : Str} {keys vals : List Val} {st : Bool} {ts : Str} {s s' : St} {ob : Option Nat}
    (h : writeDict x wr g gname name keys vals st ts s = (.ok ob, s')) : ob ≠ none := by
  rintro rfl
  unfold writeDict at h
  obtain ⟨g2, s1, h⟩ := run_bind_some h
  obtain ⟨_, s2, h⟩ := run_bind_some h
  obtain ⟨_, s3, h⟩ := run_bind_some h
  obtain ⟨_, s4, h⟩ := run_bind_some h
  obtain ⟨_, s5, h⟩ := run_bind_some h
  cases h

theorem leafOf_class {v : Val} {c : Cont} {a : Arr} (h : leafOf v = some (c, a)) (hv : ∀ c a, v ≠ .np c a) : a.dt.matlabClass ≠ none := by
  cases v with
  | np c' a' => exact absurd rfl (hv c' a')
  | int v =>
    rw [leafOf] at h
    split at h
    · cases h; exact nofun
    · cases h; exact nofun
  | dtypeObj s =>
    rw [leafOf] at h
    cases hs : utf8Enc s with
    | ok b => rw [hs] at h; cases h; exact nofun
    | error e => rw [hs] at h; cases h
  | none => rw [leafOf] at h; cases h; exact nofun
  | ellipsis => rw [leafOf] at h; cases h; exact nofun
  | notImplemented => rw [leafOf] at h; cases h; exact nofun
  | bool b => rw [leafOf] at h; cases h; exact nofun
  | float b => rw [leafOf] at h; cases h; exact nofun
  | complex a b => rw [leafOf] at h; cases h; exact nofun
  | str s => rw [leafOf] at h; cases h; exact nofun
  | bytes s => rw [leafOf] at h; cases h; exact nofun
  | bytearray s => rw [leafOf] at h; cases h; exact nofun
  | _ => cases h

/-- Which values are discarded. -/
theorem writeData_none {x : Ctx} {n g : Nat} {gname name : Str} {v : Val} {s s' : St} {ob : Option Nat}
    (h : writeData x n g gname name v s = (.ok ob, s')) : ob = none ↔ Discarded x.o v := by
  cases n with
  | zero => cases h
  | succ n =>
    have hleaf : (∀ c a, v ≠ .np c a) → (match leafOf v with | some (c, a) => writeNp x g name c a (tsOf v) | none => raise .notImplemented) s = (.ok ob, s') →
        (ob = none ↔ Discarded x.o v) := by
      intro hv h
      cases hl : leafOf v with
      | none => rw [hl] at h; cases h
      | some ca =>
        obtain ⟨c, a⟩ := ca
        rw [hl] at h
        rw [writeNp_none h]
        constructor
        · rintro ⟨_, _, h3⟩
          exact absurd h3 (leafOf_class hl hv)
        · rintro ⟨_, _, ⟨c', a', h4, _⟩ | ⟨_, c', s', n', t', e', rfl⟩⟩
          · exact absurd h4 (hv c' a')
          · cases hl
    have hother : ob ≠ none → (∀ c a, v ≠ .np c a) → (∀ c s n t e, v ≠ .npStruct c s n t e) → (ob = none ↔ Discarded x.o v) := by
      intro h1 h2 h3
      refine ⟨fun h => absurd h h1, ?_⟩
      rintro ⟨_, _, ⟨c, a, h, _⟩ | ⟨_, c', s', n', t', e', h⟩⟩
      · exact absurd h (h2 c a)
      · exact absurd h (h3 _ _ _ _ _)
    cases v with
    | npObj c shape elems => exact hother (writeNpObj_some h) (by simp) (by simp)
    | seq k elems => exact hother (writeNpObj_some h) (by simp) (by simp)
    | dict k keys vals => exact hother (writeDict_some h) (by simp) (by simp)
    | record k vals => exact hother (writeDict_some h) (by simp) (by simp)
    | np c a =>
      have h' : writeNp x g name c a (tsOf (.np c a)) s = (.ok ob, s') := h
      rw [writeNp_none h', matlabClass_none]
      constructor
      · rintro ⟨h1, h2, h3⟩; exact ⟨h1, h2, Or.inl ⟨c, a, rfl, h3⟩⟩
      · rintro ⟨h1, h2, ⟨_, _, h4, h3⟩ | ⟨_, _, _, _, _, _, h4⟩⟩ <;> cases h4
        exact ⟨h1, h2, h3⟩
    | npStruct c shape names types elems =>
      have hsome : ob ≠ none → ¬ (x.o.matlab = true ∧ x.o.structAsStruct = false ∧ x.o.action = .discard) →
          (ob = none ↔ Discarded x.o (.npStruct c shape names types elems)) := by
        intro h0 hn
        refine ⟨fun h => absurd h h0, ?_⟩
        rintro ⟨h1, h2, ⟨_, _, h4, _⟩ | ⟨h5, _⟩⟩
        · cases h4
        · exact absurd ⟨h1, h5, h2⟩ hn
      rcases writeStruct_cases h with ⟨_, e, h⟩ | ⟨h1, h2, h3, _, h⟩ | ⟨hn, esc, he, ⟨_, h⟩ | ⟨_, _, h⟩ | ⟨_, _, _, h⟩⟩
      · cases h
      · cases h
        exact ⟨fun _ => ⟨h1, h3, Or.inr ⟨h2, c, shape, names, types, elems, rfl⟩⟩, fun _ => rfl⟩
      · refine hsome ?_ hn
        rintro rfl
        obtain ⟨p, s1, h⟩ := run_bind_some h
        obtain ⟨_, s2, h⟩ := run_bind_some h
        cases h
      · refine hsome ?_ hn
        rintro rfl
        unfold writeGroup at h
        obtain ⟨p, s1, h⟩ := run_bind_some h
        obtain ⟨_, s2, h⟩ := run_bind_some h
        obtain ⟨_, s3, h⟩ := run_bind_some h
        obtain ⟨_, s4, h⟩ := run_bind_some h
        cases h
      · refine hsome ?_ hn
        rintro rfl
        obtain ⟨p, s1, h⟩ := run_bind_some h
        obtain ⟨_, s2, h⟩ := run_bind_some h
        cases h
    | _ => exact hleaf (by simp) h

theorem canon_keep {x : Ctx} {s s' : St} {r c : Nat} (hi : Inv x s) (st : Step x noA noD s s') (hr : s.refs = some r) (hc : s.canon ≠ none)
    (hl : LinkAt s.heap r p!"a" c) : LinkAt s'.heap r p!"a" c ∧ s'.heap[c]? = s.heap[c]? := by
  have hres := (hi.refs r hr).1
  have hno : ¬ OnRefsPath (refsComps x.o) s.heap c := hi.below r _ c c hres hl .refl
  refine ⟨?_, st.fr.same c (hi.wf _ _ _ hl) (fun h => h) (fun _ h => h) hno⟩
  unfold LinkAt
  rw [st.fr.links r (linkAt_lt hl) (fun h => h) _ (fun h => h)]
  · exact hl
  · rintro (⟨h, _⟩ | ⟨_, h⟩)
    · rw [hr] at h; cases h
    · exact hc (h rfl)

theorem canonical_of_isCanon {h : Heap} {c : Nat} {ob : Obj} (h1 : h[c]? = some ob) (h2 : isCanon ob = .ok true) : IsCanonicalEmpty h c := by
  unfold isCanon at h2
  cases hb : ob.body with
  | group l => rw [hb] at h2; cases h2
  | dset a f =>
    rw [hb] at h2
    dsimp only at h2
    by_cases hc : a.shape ≠ [2] ∨ ¬ (a.dt = .u8 ∨ a.dt = .u16 ∨ a.dt = .u32 ∨ a.dt = .u64) ∨ a.data ≠ [.num 0, .num 0]
    · rw [if_pos hc] at h2; cases h2
    · rw [if_neg hc] at h2
      cases hs : attrToString (aget ob.attrs p!"MATLAB_class") with
      | error e => rw [hs] at h2; cases h2
      | ok m =>
        rw [hs] at h2
        have h3 : (decide (m = some p!"canonical empty") && attrIsOne (aget ob.attrs p!"MATLAB_empty")) = true := Except.ok.inj h2
        rw [Bool.and_eq_true, decide_eq_true_iff] at h3
        have h4 : a.shape = [2] := Classical.byContradiction fun h => hc (Or.inl h)
        have h5 : a.dt = .u8 ∨ a.dt = .u16 ∨ a.dt = .u32 ∨ a.dt = .u64 := Classical.byContradiction fun h => hc (Or.inr (Or.inl h))
        have h6 : a.data = [.num 0, .num 0] := Classical.byContradiction fun h => hc (Or.inr (Or.inr h))
        exact ⟨ob, a, f, h1, hb, h5, h4, h6, by rw [hs, h3.1], h3.2⟩

theorem ensureCanon_made {s s' : St} {r c : Nat} (hc : s.canon = none) (h : ensureCanon r s = (.ok c, s')) :
    s'.canon = some c ∧ LinkAt s'.heap r p!"a" c ∧ IsCanonicalEmpty s'.heap c := by
  unfold ensureCanon at h
  change (match s.canon with | some c => (pure c : M Nat) | none => _) s = _ at h
  rw [hc] at h
  have hmake : ∀ s1 : St, (createObj r p!"a" canonObj >>= fun c => modSt (fun s => { s with canon := some c }) >>= fun _ => (pure c : M Nat)) s1 = (.ok c, s') →
      s'.canon = some c ∧ LinkAt s'.heap r p!"a" c ∧ IsCanonicalEmpty s'.heap c := by
    intro s1 hrun
    rcases bind_run (createObj r p!"a" canonObj) (fun c => modSt (fun s => { s with canon := some c }) >>= fun _ => (pure c : M Nat)) s1
      with ⟨a, s2, e1, e2⟩ | ⟨e, s2, e1, e2⟩
    · have h' := e2.symm.trans hrun
      rcases createObj_run r p!"a" canonObj s1 with ⟨e, he⟩ | ⟨he, _, h2, h3, h4, h5⟩
      · rw [he] at e1; cases e1
      · rw [he] at e1; cases e1
        change ((Except.ok s1.heap.length : Res Nat), ({ s1 with heap := createHeap s1.heap r p!"a" canonObj, canon := some s1.heap.length } : St)) = _ at h'
        cases h'
        refine ⟨rfl, ?_, ?_⟩
        · exact (linkAt_createHeap _ _ _ _ h3 h5 rfl _ _ _).mpr (Or.inr ⟨rfl, rfl, rfl⟩)
        · refine canonical_of_isCanon (ob := canonObj) ?_ (by decide +kernel)
          rw [show ({ s1 with heap := createHeap s1.heap r p!"a" canonObj, canon := some s1.heap.length } : St).heap = createHeap s1.heap r p!"a" canonObj from rfl]
          rw [getElem?_createHeap]
          simp
    · have h' := e2.symm.trans hrun
      cases h'
  cases hl : hlook s.heap r p!"a" with
  | none => rw [hl] at h; exact hmake s h
  | some c0 =>
    rw [hl] at h
    dsimp only at h
    cases ho : s.heap[c0]? with
    | none => rw [ho] at h; exact hmake s h
    | some ob =>
      rw [ho] at h
      dsimp only at h
      cases hb : isCanon ob with
      | error e =>
        have : (liftRes (isCanon ob) : M Bool) s = (.error e, s) := by rw [hb]; rfl
        rcases bind_run (liftRes (isCanon ob)) _ s with ⟨a, s2, e1, e2⟩ | ⟨e', s2, e1, e2⟩
        · rw [this] at e1; cases e1
        · rw [e2] at h; cases h
      | ok b =>
        have : (liftRes (isCanon ob) : M Bool) s = (.ok b, s) := by rw [hb]; rfl
        rcases bind_run (liftRes (isCanon ob)) _ s with ⟨a, s2, e1, e2⟩ | ⟨e', s2, e1, e2⟩
        · rw [e2] at h
          rw [this] at e1; cases e1
          cases b with
          | true =>
            change ((Except.ok c0 : Res Nat), ({ s with canon := some c0 } : St)) = _ at h
            cases h
            refine ⟨rfl, ?_, canonical_of_isCanon ho hb⟩
            rw [hlook_plain _ _ _ a_ne_dot] at hl
            exact hl
          | false =>
            rcases bind_run (unlink r p!"a") (fun _ => (createObj r p!"a" canonObj >>= fun c =>
              modSt (fun s => { s with canon := some c }) >>= fun _ => (pure c : M Nat))) s with ⟨a, s2, e1, e2⟩ | ⟨e', s2, e1, e2⟩
            · exact hmake _ (e2.symm.trans h)
            · have h' := e2.symm.trans h
              cases h'
        · rw [this] at e1; cases e1

theorem Spec.IsCanonicalEmpty.of_eq {h h' : Heap} {c : Nat} (he : h'[c]? = h[c]?) (hc : IsCanonicalEmpty h c) : IsCanonicalEmpty h' c := by
  obtain ⟨ob, a, f, h1, h2⟩ := hc
  exact ⟨ob, a, f, he.trans h1, h2⟩

/-- Elements of an object array: where the references go. -/
theorem writeElems_refs {x : Ctx} {n : Nat} (hn : NamesOk x.o) {s s' : St} {r c : Nat} {vs : List Val} {l : List Nat} (hi : Inv x s)
    (hr : s.refs = some r) (hc : c < s.heap.length) (h : writeElems x (writeData x n) r c vs s = (.ok l, s')) :
    All2 (fun v q => (Discarded x.o v ∧ q = c) ∨ (¬ Discarded x.o v ∧ s.heap.length ≤ q ∧ q < s'.heap.length)) vs l ∧
      (l.filter (fun q => decide (q ≠ c))).Pairwise (· < ·) := by
  have hwr := writeData_post (x := x) hn.keys hn.vals n
  induction vs generalizing s l with
  | nil => cases h; exact ⟨.nil, .nil⟩
  | cons v vs ih =>
    rw [writeElems] at h
    rcases bind_run (nextName x) _ s with ⟨nm, s1, e1, e2⟩ | ⟨e, s1, e1, e2⟩
    · rw [e2] at h
      rcases bind_run (writeData x n r (refsName x.o) nm v) _ s1 with ⟨ob, s2, e3, e4⟩ | ⟨e, s2, e3, e4⟩
      · rw [e4] at h
        obtain ⟨st, _, _, hob⟩ := elem_step hwr hi hr e1 e3
        have hdis := writeData_none e3
        have hlen : s.heap.length ≤ s1.heap.length := (nextName_spec hi hr e1).1.fr.len
        cases ob with
        | none =>
          dsimp only at h
          rcases bind_run (writeElems x (writeData x n) r c vs) (fun rest => (pure (c :: rest) : M (List Nat))) s2 with ⟨a, s3, e5, e6⟩ | ⟨e, s3, e5, e6⟩
          · rw [e6, run_pure] at h; cases h
            obtain ⟨i1, i2⟩ := ih st.inv (st.keepRefs hr) (Nat.lt_of_lt_of_le hc st.fr.len) e5
            refine ⟨.cons (Or.inl ⟨hdis.mp rfl, rfl⟩) (all2_mono ?_ i1), ?_⟩
            · rintro v q (h | ⟨h1, h2, h3⟩)
              · exact Or.inl h
              · exact Or.inr ⟨h1, Nat.le_trans st.fr.len h2, h3⟩
            · rw [List.filter_cons_of_neg (by simp)]; exact i2
          · rw [e6] at h; cases h
        | some p =>
          dsimp only at h
          obtain ⟨q1, q2, q3⟩ := hob p rfl
          rcases bind_run (setH5Path x p (asciiEnc (refsName x.o))) _ s2 with ⟨u, s3, e5, e6⟩ | ⟨e, s3, e5, e6⟩
          · rw [e6] at h
            have sth := setH5Path_step st.inv p _ e5
            have st3 := st.trans sth (fun _ _ h => h) (fun q hq hqp => by rw [show q = p from hqp] at hq; omega)
            rcases bind_run (writeElems x (writeData x n) r c vs) (fun rest => (pure (p :: rest) : M (List Nat))) s3 with ⟨a, s4, e7, e8⟩ | ⟨e, s4, e7, e8⟩
            · rw [e8, run_pure] at h; cases h
              have str := writeElems_step hwr st3.inv (st3.keepRefs hr) e7
              obtain ⟨i1, i2⟩ := ih st3.inv (st3.keepRefs hr) (Nat.lt_of_lt_of_le hc st3.fr.len) e7
              have hp3 : p < s3.heap.length := Nat.lt_of_lt_of_le q2 sth.fr.len
              refine ⟨.cons (Or.inr ⟨fun hd => (by have := hdis.mpr hd; cases this), Nat.le_trans hlen q1, Nat.lt_of_lt_of_le hp3 str.fr.len⟩) (all2_mono ?_ i1), ?_⟩
              · rintro v q (h | ⟨h1, h2, h3⟩)
                · exact Or.inl h
                · exact Or.inr ⟨h1, Nat.le_trans st3.fr.len h2, h3⟩
              · rw [List.filter_cons_of_pos (by simp; omega)]
                refine .cons ?_ i2
                intro q hq
                obtain ⟨hq1, hq2⟩ := List.mem_filter.mp hq
                obtain ⟨v, _, h5⟩ := all2_right i1 q hq1
                rcases h5 with ⟨_, h5⟩ | ⟨_, h5, _⟩
                · simp [h5] at hq2
                · omega
            · rw [e8] at h; cases h
          · rw [e6] at h; cases h
      · rw [e4] at h; cases h
    · rw [e2] at h; cases h

theorem all2_get {α β : Type} {R : α → β → Prop} {l : List α} {m : List β} (h : All2 R l m) : l.length = m.length ∧
    ∀ (i : Nat) (a : α), l[i]? = some a → ∃ b, m[i]? = some b ∧ R a b := by
  induction h with
  | nil => exact ⟨rfl, fun i a h => by simp at h⟩
  | cons h _ ih =>
    refine ⟨by simp [ih.1], fun i a hi => ?_⟩
    cases i with
    | zero => simp at hi; subst hi; exact ⟨_, by simp, h⟩
    | succ i => simp at hi; obtain ⟨b, h1, h2⟩ := ih.2 i a hi; exact ⟨b, by simpa using h1, h2⟩

theorem filter_distinct {c : Nat} {l : List Nat} (h : (l.filter (fun q => decide (q ≠ c))).Pairwise (· < ·)) :
    ∀ (i j q : Nat), i < j → l[i]? = some q → l[j]? = some q → q = c := by
  induction l with
  | nil => intro i j q _ h; simp at h
  | cons a l ih =>
    intro i j q hij h1 h2
    by_cases ha : a = c
    · cases i with
      | zero => simp at h1; omega
      | succ i =>
        cases j with
        | zero => omega
        | succ j =>
          rw [List.filter_cons_of_neg (by simp [ha])] at h
          exact ih h i j q (by omega) (by simpa using h1) (by simpa using h2)
    · rw [List.filter_cons_of_pos (by simp [ha])] at h
      cases j with
      | zero => omega
      | succ j =>
        have h2 : l[j]? = some q := by simpa using h2
        cases i with
        | zero =>
          have h1 : a = q := by simpa using h1
          subst h1
          exfalso
          have := List.rel_of_pairwise_cons h (List.mem_filter.mpr ⟨List.mem_of_getElem? h2, by simpa using ha⟩)
          omega
        | succ i => exact ih h.of_cons i j q (by omega) (by simpa using h1) h2

theorem ensureCanon_known {s s' : St} {r c : Nat} (h : ensureCanon r s = (.ok c, s')) (hc : s.canon ≠ none) : s' = s ∧ s.canon = some c := by
  unfold ensureCanon at h
  change (match s.canon with | some c => (pure c : M Nat) | none => _) s = _ at h
  cases hs : s.canon with
  | none => exact absurd hs hc
  | some c' => rw [hs] at h; cases h; exact ⟨rfl, rfl⟩

theorem ensureRefs_canon {x : Ctx} {s s' : St} {res : Res Nat} (hi : Inv x s) (h : ensureRefs x s = (res, s')) : s'.canon = s.canon := by
  unfold ensureRefs at h
  change (match s.refs with | some r => (pure r : M Nat) | none => _) s = _ at h
  cases hs : s.refs with
  | some r => rw [hs] at h; cases h; rfl
  | none =>
    rw [hs] at h
    have hmake : ∀ (s1 : St), Inv x s1 → SameBk s s1 →
        (createPath 0 (refsComps x.o) >>= fun r => modSt (fun s => { s with refs := some r, created := true }) >>= fun _ => (pure r : M Nat)) s1 = (res, s') →
        s'.canon = s.canon := by
      intro s1 hi1 hbk hrun
      rcases bind_run (createPath 0 (refsComps x.o)) (fun r => modSt (fun s => { s with refs := some r, created := true }) >>= fun _ => (pure r : M Nat)) s1
        with ⟨a, s2, e1, e2⟩ | ⟨e, s2, e1, e2⟩
      · have h' := e2.symm.trans hrun
        have i2 := (createPath_spec (x := x) (refsComps x.o) [] 0 s1 s2 _ hi1 (hbk.1.trans hs) rfl rfl e1).2.1
        change ((Except.ok a : Res Nat), ({ s2 with refs := some a, created := true } : St)) = _ at h'
        cases h'
        exact (hbk.trans i2).2.2.2.2
      · have h' := e2.symm.trans hrun
        have i2 := (createPath_spec (x := x) (refsComps x.o) [] 0 s1 s2 _ hi1 (hbk.1.trans hs) rfl rfl e1).2.1
        cases h'
        exact (hbk.trans i2).2.2.2.2
    cases hres : resolve s.heap 0 (refsComps x.o) with
    | none => rw [hres] at h; exact hmake s hi (SameBk.refl s) h
    | some r =>
      rw [hres] at h
      by_cases hg : isGroup s.heap r = true
      · simp only [hg, if_true] at h
        change ((Except.ok r : Res Nat), ({ s with refs := some r, created := false } : St)) = _ at h
        cases h
        rfl
      · simp only [hg] at h
        rcases bind_run (unlinkPath 0 (refsComps x.o)) (fun _ => createPath 0 (refsComps x.o) >>= fun r =>
          modSt (fun s => { s with refs := some r, created := true }) >>= fun _ => (pure r : M Nat)) s with ⟨a, s2, e1, e2⟩ | ⟨e, s2, e1, e2⟩
        · have h' := e2.symm.trans h
          obtain ⟨u1, u2, _⟩ := unlinkPath_spec (x := x) (refsComps x.o) [] 0 s s2 _ hi hs rfl rfl e1
          exact hmake s2 u1.inv u2 h'
        · have h' := e2.symm.trans h
          obtain ⟨_, u2, _⟩ := unlinkPath_spec (x := x) (refsComps x.o) [] 0 s s2 _ hi hs rfl rfl e1
          cases h'
          exact u2.2.2.2.2

/-- `C18_refs`. -/
theorem writeObjectArray_refs {x : Ctx} (hn : NamesOk x.o) {s s' : St} (hi : Inv x s) {n : Nat} {vs : List Val} {l : List Nat}
    (h : writeObjectArray x (writeData x n) vs s = (.ok l, s')) :
    l.length = vs.length ∧ ∃ c, s'.canon = some c ∧
      (s.canon = none → LPath s'.heap (hdf5Names x.o.refsPath ++ [p!"a"]) c ∧ IsCanonicalEmpty s'.heap c) ∧
      (∀ (i : Nat) v, vs[i]? = some v → Discarded x.o v → l[i]? = some c) ∧
      (∀ (i : Nat) v, vs[i]? = some v → ¬ Discarded x.o v → ∃ q, l[i]? = some q ∧ q ≠ c ∧ s.heap.length ≤ q ∧ q < s'.heap.length) ∧
      (∀ (i j q : Nat), i < j → l[i]? = some q → l[j]? = some q → q = c) := by
  unfold writeObjectArray at h
  rcases bind_run (ensureRefs x) _ s with ⟨r, s1, e1, e2⟩ | ⟨e, s1, e1, e2⟩
  · rw [e2] at h
    obtain ⟨st, hr⟩ := ensureRefs_spec hi e1
    have hr1 := hr r rfl
    have hc0 := ensureRefs_canon hi e1
    rcases bind_run (ensureCanon r) _ s1 with ⟨c, s2, e3, e4⟩ | ⟨e, s2, e3, e4⟩
    · rw [e4] at h
      have st1 := ensureCanon_spec st.inv hr1 e3
      have hr2 := st1.keepRefs hr1
      have st2 : Step x noA noD s s2 := st.trans st1 (fun _ _ h => h) (fun _ _ h => h)
      have hce : s2.canon = some c ∧ c < s2.heap.length ∧ (s.canon = none → LinkAt s2.heap r p!"a" c ∧ IsCanonicalEmpty s2.heap c) := by
        cases hs : s1.canon with
        | none =>
          obtain ⟨c1, c2, c3⟩ := ensureCanon_made hs e3
          exact ⟨c1, st2.inv.wf _ _ _ c2, fun _ => ⟨c2, c3⟩⟩
        | some c' =>
          obtain ⟨c1, c2⟩ := ensureCanon_known e3 (by rw [hs]; simp)
          subst c1
          exact ⟨c2, st.inv.can c c2, fun h => by rw [← hc0, hs] at h; cases h⟩
      obtain ⟨k1, k2, k3⟩ := hce
      have str := writeElems_step (writeData_post hn.keys hn.vals n) st2.inv hr2 h
      obtain ⟨w1, w2⟩ := writeElems_refs hn st2.inv hr2 k2 h
      obtain ⟨g1, g2⟩ := all2_get w1
      refine ⟨g1.symm, c, str.fr.canon c k1, ?_, ?_, ?_, filter_distinct w2⟩
      · intro hs
        obtain ⟨m1, m2⟩ := k3 hs
        obtain ⟨m3, m4⟩ := canon_keep st2.inv str hr2 (by rw [k1]; simp) m1
        exact ⟨.snoc (lpath_resolve (plainComps x) (str.inv.refs r (str.keepRefs hr2)).1) m3, m2.of_eq m4⟩
      · intro i v h1 h2
        obtain ⟨q, q1, q2 | ⟨q2, _⟩⟩ := g2 i v h1
        · rw [q1, q2.2]
        · exact absurd h2 q2
      · intro i v h1 h2
        obtain ⟨q, q1, q2 | ⟨_, q3, q4⟩⟩ := g2 i v h1
        · exact absurd q2.1 h2
        · exact ⟨q, q1, by omega, Nat.le_trans st2.fr.len q3, q4⟩
    · rw [e4] at h; cases h
  · rw [e2] at h; cases h

theorem readDset_refs {rd : Rd} {vs : List Val} {l : List Nat} (h : All2 (fun v q => rd q = .ok v) vs l) (shape : List Nat) :
    readDset rd ⟨.ref, shape, l.map El.ref⟩ = .ok (.obj shape vs) := by
  unfold readDset
  rw [if_pos rfl]
  have key : ∀ f : El → Res Val, (∀ p, f (.ref p) = rd p) → (l.map El.ref).mapM f = .ok vs := by
    intro f hf
    induction h with
    | nil => rfl
    | cons h _ ih => rw [List.map_cons, List.mapM_cons, ih, hf, h]; rfl
  rw [key _ (fun _ => rfl)]
  rfl

end HS
