import Verif.Lemmas.MatAll
/-
What is read from a MATLAB compatible file without Python metadata is expected to survive a round trip.
-/
namespace HS
open Spec

/-- An ndarray with dimensions, not one of type object as plain data. -/
inductive IsArray : Val → Prop
  | np (a : Arr) : a.shape ≠ [] → a.dt ≠ .object → IsArray (.np .ndarray a)
  | npObj (sh : List Nat) (e : List Val) : sh ≠ [] → IsArray (.npObj .ndarray sh e)
  | npStruct (sh : List Nat) (n : List Str) (t : List FT) (e : List Val) : sh ≠ [] → IsArray (.npStruct .ndarray sh n t e)

theorem rowShape_ne {o : COpts} (h : o.atleast2d = true) (sh : List Nat) : RowShape o sh ≠ [] := by
  unfold RowShape
  rw [if_pos h]
  match sh with
  | [] => nofun
  | [n] => nofun
  | a :: b :: l => nofun

/-- The dtypes arrays without elements are read with. -/
theorem empty_dt {o : COpts} {v : Val} {a : Arr} {cl : Str} {dt : DT} (h : NumericOf v a ∨ TextData o v a) (hc : ClassOf v cl) (hk : KnownClass cl dt) :
    dt ∈ [DT.bool, .u8, .u16, .u32, .u64, .i8, .i16, .i32, .i64, .f32, .f64, .str 1] := by
  have : ∃ d, DtClass d cl := by
    rcases h with h | h
    · exact ⟨_, numeric_class h hc⟩
    · obtain ⟨_, c, dt, sh, hnp, hd⟩ := textData_class h
      rw [classOf_text hnp hd hc]
      exact ⟨_, .bytes 0⟩
  obtain ⟨d, h⟩ := this
  obtain ⟨dt', h1, h2⟩ := dtClass_known h
  have e : some dt = some dt' := by rw [← knownClass_dt hk, ← knownClass_dt h1]
  cases e
  cases h1 with
  | num h => cases h <;> simp
  | cell => exact absurd rfl h2
  | struct => exact absurd rfl h2
  | _ => simp

theorem textBytes_fits {o : COpts} {v : Val} {a : Arr} {n : Nat} (h : TextData o v a) (hd : a.dt = .bytes n) :
    n ≠ 0 ∧ a.data.length = prodN a.shape ∧ ∀ e ∈ a.data, ∃ u, e = .units u ∧ u.length = n := by
  cases h with
  | utf16 => cases hd
  | utf32 => cases hd
  | empty => exact absurd hd (by dsimp only; split <;> nofun)
  | bytes16 => cases hd
  | empty16 => cases hd
  | @bytes m sh bs h h0 =>
    cases hd
    refine ⟨h0, by simpa using bytesOf_count h, ?_⟩
    intro e he
    obtain ⟨b, hb, rfl⟩ := List.mem_map.mp he
    refine ⟨b, rfl, ?_⟩
    cases h with
    | np _ _ _ _ h => exact h b hb
    | bigNegInt => rw [List.mem_singleton.mp hb]; simp
    | _ => rw [List.mem_singleton.mp hb]
  | width0 h =>
    cases hd
    refine ⟨by simp, by simpa using bytesOf_count h, ?_⟩
    intro e he
    obtain ⟨b, _, rfl⟩ := List.mem_map.mp he
    exact ⟨_, rfl, rfl⟩

/-- Unless structs are read as dicts, everything is read as an ndarray with dimensions. -/
theorem asMatlab_array {o : COpts} (h2 : o.atleast2d = true) {P : Part} {w : Val} (h : AsMatlab o false P w) : IsArray w ∨ ∃ sh e, P = .column sh e := by
  cases h with
  | @number _ a _ h1 => exact .inl (.np _ (rowShape_ne h2 _) (by
      have := numericOf_dt h1
      intro h
      rw [show a.dt = DT.object from h] at this
      simp [NumericDT] at this))
  | @empty _ _ _ dt h1 h3 h4 h5 => exact .inl (.np _ (rowShape_ne h2 _) (by
      intro h
      have := empty_dt h1 h4 h5
      rw [show dt = DT.object from h] at this
      simp at this))
  | chars _ _ h3 h4 => exact .inl (.np _ (by rw [h4]; simp) (by rw [h3.dt]; nofun))
  | @bytes _ a _ _ h3 => exact .inl (.np _ (rowShape_ne h2 _) (by show a.dt ≠ _; rw [h3]; nofun))
  | cells => exact .inl (.npObj _ _ (rowShape_ne h2 _))
  | column => exact .inr ⟨_, _, rfl⟩
  | dict h => cases h
  | one => exact .inl (.npStruct _ _ _ _ (by simp))
  | several => exact .inl (.npStruct _ _ _ _ (rowShape_ne h2 _))
  | emptyStruct => exact .inl (.npStruct _ _ _ _ (rowShape_ne h2 _))

theorem handed_same {ft : FT} {w u : Val} (hw : IsArray w) (h : Handed ft w u) : u = w := by
  cases hw with
  | np a h1 h2 =>
    cases h with
    | object => rfl
    | array => rfl
    | scalar _ _ _ h => exact absurd h h1
    | bytes => exact absurd rfl h1
    | str => exact absurd rfl h1
  | npObj sh e h1 => cases h <;> rfl
  | npStruct sh n t e h1 =>
    cases h with
    | object => rfl
    | npStruct _ _ _ _ _ _ => rw [if_neg h1]

theorem fieldOk_of {ft : FT} {vs : List Val} (hv : ∀ v ∈ vs, IsArray v) (hne : vs ≠ []) (h : FieldTypeOf vs ft) : FieldOk ft vs := by
  rcases h with ⟨_, h⟩ | ⟨h1, h2⟩
  · have key : ∀ v ∈ vs, ft ≠ .base .object [] ∧ InField (subShape ft) v := by
      intro v hvv
      have h1 := h v hvv
      cases hv v hvv with
      | np a g1 g2 =>
        cases h1
        refine ⟨fun e => ?_, ?_⟩
        · injection e with e1 e2; exact g1 e2
        · show Cont.ndarray = _; rw [show subShape (.base a.dt a.shape) = a.shape from rfl, if_neg g1]
      | npObj sh e g1 =>
        cases h1
        refine ⟨fun e => ?_, rfl⟩
        injection e with e1 e2; exact g1 e2
      | npStruct sh n t e g1 =>
        cases h1
        refine ⟨nofun, ?_⟩
        show Cont.ndarray = _; rw [show subShape (.struct n t sh) = sh from rfl, if_neg g1]
    obtain ⟨v, hvv⟩ := List.exists_mem_of_ne_nil _ hne
    exact .inr ⟨(key v hvv).1, fun v hvv => ⟨h v hvv, (key v hvv).2⟩⟩
  · exact .inl ⟨h1, h2.resolve_left hne⟩

theorem drop_flatten {α : Type} {p : Nat} : ∀ {l : List (List α)}, (∀ c ∈ l, c.length = p) → ∀ {k : Nat} {c : List α}, l[k]? = some c → (l.flatten.drop (k * p)).take p = c := by
  intro l
  induction l with
  | nil => intro _ k c h; simp at h
  | cons a l ih =>
    intro hl k c h
    have ha := hl a (by simp)
    cases k with
    | zero =>
      simp only [List.getElem?_cons_zero, Option.some.injEq] at h
      subst h
      rw [Nat.zero_mul, List.drop_zero, List.flatten_cons, ← ha, List.take_left]
    | succ k =>
      simp only [List.getElem?_cons_succ] at h
      rw [List.flatten_cons, Nat.add_mul, Nat.one_mul, Nat.add_comm, ← List.drop_drop, ← ha, List.drop_left, ha]
      exact ih (fun c hc => hl c (by simp [hc])) h

theorem strKeys (keys : List Str) : All2 KeyText (keys.map .str) keys := by
  induction keys with
  | nil => exact .nil
  | cons t l ih => exact .cons (.str t) ih

/-- What the options of writing the value again have to be. -/
structure AgainOpts (z : COpts) (d : Bool) : Prop where
  asStruct : z.structAsStruct = true
  cplx : CplxNames z
  structs : d = false → z.matlab = true → z.structsAsDicts = false

/-- Everything that is read is expected to survive a round trip. -/
theorem asMatlab_good {o z : COpts} {d : Bool} (hR : MatR o) (hz : AgainOpts z d) {P : Part} {w : Val} (h : AsMatlab o d P w) (hE : ¬ HasEmptyStruct w) : Good z w := by
  have named : ∀ {names shown keys : List Str} {α : Type} {l : List α}, l.length = names.length → Shown names shown → (∀ t, t ∈ keys ↔ t ∈ shown) →
      ∀ {j : Nat} {t : Str}, keys[j]? = some t → ∃ (i : Nat) (a : α), shown[i]? = some t ∧ l[i]? = some a := by
    intro names shown keys α l hl hs hk j t ht
    obtain ⟨i, hi, e⟩ := List.mem_iff_getElem.mp ((hk t).mp (List.mem_of_getElem? ht))
    have hi' : i < l.length := by rw [hl, all2_length hs]; exact hi
    exact ⟨i, l[i], by rw [List.getElem?_eq_getElem hi, e], List.getElem?_eq_getElem hi'⟩
  induction h with
  | @number v a cl h1 h2 h3 h4 =>
    have hcl := numeric_class h1 h3
    have hdt : (AsRow o a).dt = a.dt := rfl
    have hp : a.dt ≠ .object ∧ a.dt ≠ .ref ∧ (∀ r i d, a.dt ≠ .crec r i d) ∧ (∀ o s n t, a.dt ≠ .comp o s n t) ∧ (∀ n, a.dt ≠ .str n) ∧ (∀ n, a.dt ≠ .bytes n) ∧ a.dt ≠ .f16 := by
      have hn := numericOf_dt h1
      generalize a.dt = dt at hcl hn
      cases hcl with
      | str => simp [NumericDT] at hn
      | bytes => simp [NumericDT] at hn
      | _ => simp
    refine .np _ _ ⟨⟨?_, h4.fits, ?_⟩, nofun, nofun, nofun, fun _ => ⟨hp.2.2.2.2.2.1 0, hp.2.2.2.2.1 0⟩, fun n hn => absurd hn (hp.2.2.2.2.1 n)⟩ (fun _ _ => hp.2.2.2.2.2.2)
      (fun _ _ => hz.cplx)
    · show a.data.length = prodN (RowShape o a.shape)
      rw [prodN_rowShape, h4.count]
    · exact ⟨hp.1, hp.2.1, hp.2.2.1, hp.2.2.2.1⟩
  | @empty v a cl dt h1 h2 h3 h4 =>
    have hd := empty_dt h1 h3 h4
    have h0 : prodN (RowShape o a.shape) = 0 := by
      rw [prodN_rowShape]
      rcases h1 with h1 | h1
      · exact prodN_zero.mpr ((numeric_empty h1).mp h2)
      · rw [textData_empty hR h1 h2]; rfl
    refine .np _ _ ⟨⟨h0.symm, (fun e he => by cases he), ?_⟩, nofun, nofun, nofun, fun _ => ?_, ?_⟩ (fun _ _ => ?_) (fun _ h => absurd rfl h)
    · show dt ≠ _ ∧ dt ≠ _ ∧ (∀ r i d, dt ≠ _) ∧ ∀ o s n t, dt ≠ _
      refine ⟨?_, ?_, fun r i d => ?_, fun o s n t => ?_⟩ <;> (intro e; rw [e] at hd; simp at hd)
    · show dt ≠ _ ∧ dt ≠ _
      refine ⟨?_, ?_⟩ <;> (intro e; rw [e] at hd; simp at hd)
    · intro n _ h
      exact absurd h (by show ¬ 0 < prodN (RowShape o a.shape); omega)
    · show dt ≠ _
      intro e; rw [e] at hd; simp at hd
  | @chars v rest k m ss r h1 h2 h3 h4 h5 h6 =>
    refine .np _ _ ⟨⟨?_, ?_, ?_⟩, nofun, nofun, nofun, fun _ => ?_, ?_⟩ (fun _ _ => by rw [h3.dt]; nofun) (fun h => by rw [h3.dt] at h; rcases h with h | h <;> cases h)
    · rw [h3.data, List.length_map]; exact h3.size
    · intro e he
      rw [h3.data] at he
      obtain ⟨s, hs, rfl⟩ := List.mem_map.mp he
      rw [h3.dt]
      have := h3.width s hs
      show (s ++ List.replicate (m - s.length) 0).length = m
      simp; omega
    · rw [h3.dt]; exact ⟨nofun, nofun, nofun, nofun⟩
    · rw [h3.dt]
      refine ⟨nofun, ?_⟩
      intro e; injection e with e; omega
    · intro n hn _
      rw [h3.dt] at hn
      cases hn
      exact ⟨ss, h3, h1.storable, h6⟩
  | @bytes v a n h1 h2 h3 =>
    obtain ⟨g1, g2, g3⟩ := textBytes_fits h1 h2
    have hdt : (AsRow o a).dt = .bytes n := h2
    refine .np _ _ ⟨⟨?_, ?_, ?_⟩, nofun, nofun, nofun, fun _ => ?_, ?_⟩ (fun _ _ => by rw [hdt]; nofun) (fun h => by rw [hdt] at h; rcases h with h | h <;> cases h)
    · show a.data.length = prodN (RowShape o a.shape)
      rw [prodN_rowShape, g2]
    · intro e he
      obtain ⟨u, rfl, hu⟩ := g3 e he
      rw [hdt]
      exact hu
    · rw [hdt]; exact ⟨nofun, nofun, nofun, nofun⟩
    · rw [hdt]
      refine ⟨?_, nofun⟩
      intro e; injection e with e; exact g1 e
    · intro n hn _; rw [hdt] at hn; cases hn
  | @cells v sh e es h1 h2 h3 _ ih =>
    refine .npObj _ _ _ (.inl rfl) (by rw [h3, h2, prodN_rowShape]) ?_
    intro w hw
    obtain ⟨i, hi, e'⟩ := List.mem_iff_getElem.mp hw
    have g1 : es[i]? = some w := by rw [List.getElem?_eq_getElem hi, e']
    exact ih i _ w (List.getElem?_eq_getElem (h3 ▸ hi)) g1 (fun h => hE (.npObj _ _ _ w hw h))
  | @column sh e el es h1 h2 _ ih =>
    refine .npObj _ _ _ (.inl rfl) ?_ ?_
    · rw [h2, h1.count, StoredShape, if_pos hR.reverse, prodN_reverse, prodN_rowShape]
    intro w hw
    obtain ⟨i, hi, e'⟩ := List.mem_iff_getElem.mp hw
    have g1 : es[i]? = some w := by rw [List.getElem?_eq_getElem hi, e']
    exact ih i _ w (List.getElem?_eq_getElem (h2 ▸ hi)) g1 (fun h => hE (.npObj _ _ _ w hw h))
  | @dict v names shown keys parts vals hd hf hl hs hn hk hv _ ih =>
    refine .dictText _ _ _ keys ?_ hn (by rw [hv, List.length_map]) ?_
    · exact strKeys keys
    intro w hw
    obtain ⟨j, hj, e⟩ := List.mem_iff_getElem.mp hw
    have g1 : vals[j]? = some w := by rw [List.getElem?_eq_getElem hj, e]
    have g2 : keys[j]? = some (keys[j]'(hv ▸ hj)) := List.getElem?_eq_getElem _
    obtain ⟨i, P, g3, g4⟩ := named hl hs hk g2
    exact ih i j _ P w g3 g4 g2 g1 (fun h => hE (.dict _ _ _ w hw h))
  | @one v names shown keys fields vals us types hd hf hl hs k1 k2 hn hk hv ht hu hA hF hH ih =>
    subst hd
    have arr : ∀ {j : Nat} {w : Val}, vals[j]? = some w → IsArray w ∧ (¬ HasEmptyStruct w → Good z w) := by
      intro j w g1
      have hj := (List.getElem?_eq_some_iff.mp g1).1
      have g2 : keys[j]? = some (keys[j]'(hv ▸ hj)) := List.getElem?_eq_getElem _
      obtain ⟨i, w0, g3, g4⟩ := named hl hs hk g2
      refine ⟨(asMatlab_array hR.atleast2d (hA i j _ w0 w g3 g4 g2 g1)).resolve_right (by rintro ⟨_, _, h⟩; cases h), ih i j _ w0 w g3 g4 g2 g1⟩
    have same : us = vals := by
      apply List.ext_getElem? 
      intro j
      cases g1 : vals[j]? with
      | none =>
        rw [List.getElem?_eq_none_iff] at g1 ⊢
        omega
      | some w =>
        have hj := (List.getElem?_eq_some_iff.mp g1).1
        have g2 : us[j]? = some (us[j]'(by omega)) := List.getElem?_eq_getElem _
        have g3 : types[j]? = some (types[j]'(by omega)) := List.getElem?_eq_getElem _
        rw [g2, handed_same (arr g1).1 (hH j w _ _ g1 g3 g2)]
    subst same
    refine .npStruct _ _ _ _ _ ⟨.inl rfl, by simp [prodN], ⟨k1, k2, hn⟩, ht, by simp [prodN, hv], ?_, .inl hz.asStruct, fun _ _ => hz.asStruct, hz.structs rfl⟩ ?_
    · intro k t hkt
      have hk' := (List.getElem?_eq_some_iff.mp hkt).1
      have g1 : us[k]? = some (us[k]'(by omega)) := List.getElem?_eq_getElem _
      have e : (us.drop (k * prodN [1])).take (prodN [1]) = [us[k]'(by omega)] := by
        simp only [prodN, Nat.mul_one]
        rw [List.drop_eq_getElem_cons (by omega)]
        rfl
      rw [e]
      refine fieldOk_of ?_ (by simp) (hF k _ t g1 hkt)
      intro v hv'
      rw [List.mem_singleton.mp hv']
      exact (arr g1).1
    · intro w hw
      obtain ⟨j, hj, e⟩ := List.mem_iff_getElem.mp hw
      have g1 : us[j]? = some w := by rw [List.getElem?_eq_getElem hj, e]
      exact (arr g1).2 (fun h => hE (.field _ _ _ _ _ w hw h))
  | @several v sh names shown keys cols ess us types hd hf hl hc h0 hs k1 k2 hn hk hv ht hu hes hus hA hF hH ih =>
    subst hd
    have arr : ∀ {j k : Nat} {es : List Val} {w : Val}, ess[j]? = some es → es[k]? = some w → IsArray w ∧ (¬ HasEmptyStruct w → Good z w) := by
      intro j k es w g1 g1'
      have hj := (List.getElem?_eq_some_iff.mp g1).1
      have g2 : keys[j]? = some (keys[j]'(hv ▸ hj)) := List.getElem?_eq_getElem _
      obtain ⟨i, col, g3, g4⟩ := named hl hs hk g2
      have hk' := (List.getElem?_eq_some_iff.mp g1').1
      rw [hes es (List.mem_of_getElem? g1), ← hc col (List.mem_of_getElem? g4)] at hk'
      have g5 : col[k]? = some (col[k]'hk') := List.getElem?_eq_getElem _
      refine ⟨(asMatlab_array hR.atleast2d (hA i j k _ col es _ w g3 g4 g2 g1 g5 g1')).resolve_right (by rintro ⟨_, _, h⟩; cases h), ih i j k _ col es _ w g3 g4 g2 g1 g5 g1'⟩
    have same : us = ess := by
      apply List.ext_getElem?
      intro j
      cases g1 : ess[j]? with
      | none =>
        rw [List.getElem?_eq_none_iff] at g1 ⊢
        omega
      | some es =>
        have hj := (List.getElem?_eq_some_iff.mp g1).1
        have g2 : us[j]? = some (us[j]'(by omega)) := List.getElem?_eq_getElem _
        have g3 : types[j]? = some (types[j]'(by omega)) := List.getElem?_eq_getElem _
        rw [g2]
        congr 1
        have l1 := hes es (List.mem_of_getElem? g1)
        have l2 := hus _ (List.mem_of_getElem? g2)
        apply List.ext_getElem?
        intro k
        cases g4 : es[k]? with
        | none =>
          rw [List.getElem?_eq_none_iff] at g4 ⊢
          omega
        | some w =>
          have hk' := (List.getElem?_eq_some_iff.mp g4).1
          have g5 : (us[j]'(by omega))[k]? = some ((us[j]'(by omega))[k]'(by omega)) := List.getElem?_eq_getElem _
          rw [g5, handed_same (arr g1 g4).1 (hH j k es _ _ w _ g1 g3 g2 g4 g5)]
    subst same
    have hpos : 0 < prodN sh := Nat.pos_iff_ne_zero.mpr (fun h => h0 (prodN_zero.mp h))
    refine .npStruct _ _ _ _ _ ⟨.inl rfl, by rw [prodN_rowShape]; exact hpos, ⟨k1, k2, hn⟩, ht, ?_, ?_, .inl hz.asStruct, fun _ _ => hz.asStruct, hz.structs rfl⟩ ?_
    · rw [prodN_rowShape, flatten_const_length _ _ hes, hv]
    · intro k t hkt
      have hk' := (List.getElem?_eq_some_iff.mp hkt).1
      have g1 : us[k]? = some (us[k]'(by omega)) := List.getElem?_eq_getElem _
      rw [prodN_rowShape, drop_flatten hes g1]
      have hl' := hes _ (List.mem_of_getElem? g1)
      refine fieldOk_of ?_ (fun e => by rw [e] at hl'; simp at hl'; omega) (hF k _ t g1 hkt)
      intro v hv'
      obtain ⟨i, hi, e⟩ := List.mem_iff_getElem.mp hv'
      exact (arr (k := i) g1 (by rw [List.getElem?_eq_getElem hi, e])).1
    · intro w hw
      obtain ⟨es, h1, h2⟩ := List.mem_flatten.mp hw
      obtain ⟨j, hj, e⟩ := List.mem_iff_getElem.mp h1
      obtain ⟨i, hi, e'⟩ := List.mem_iff_getElem.mp h2
      exact (arr (j := j) (k := i) (by rw [List.getElem?_eq_getElem hj, e]) (by rw [List.getElem?_eq_getElem hi, e'])).2 (fun h => hE (.field _ _ _ _ _ w hw h))
  | emptyStruct c sh n ty e h0 => exact absurd (.here _ _ _ _ _ (rowShape_zero.mpr h0)) hE

/-- If structs are read as dicts, there are no structured arrays but for those without elements. -/
theorem asMatlab_noStruct {o : COpts} {P : Part} {w : Val} (h : AsMatlab o true P w) (hE : ¬ HasEmptyStruct w) : ¬ HasStruct w := by
  have named : ∀ {names shown keys : List Str} {α : Type} {l : List α}, l.length = names.length → Shown names shown → (∀ t, t ∈ keys ↔ t ∈ shown) →
      ∀ {j : Nat} {t : Str}, keys[j]? = some t → ∃ (i : Nat) (a : α), shown[i]? = some t ∧ l[i]? = some a := by
    intro names shown keys α l hl hs hk j t ht
    obtain ⟨i, hi, e⟩ := List.mem_iff_getElem.mp ((hk t).mp (List.mem_of_getElem? ht))
    have hi' : i < l.length := by rw [hl, all2_length hs]; exact hi
    exact ⟨i, l[i], by rw [List.getElem?_eq_getElem hi, e], List.getElem?_eq_getElem hi'⟩
  generalize hd : true = d at h
  induction h with
  | number => intro h; cases h
  | empty => intro h; cases h
  | chars => intro h; cases h
  | bytes => intro h; cases h
  | @cells v sh e es h1 h2 h3 _ ih =>
    intro h
    cases h with
    | npObj _ _ _ w hw h =>
      obtain ⟨i, hi, e'⟩ := List.mem_iff_getElem.mp hw
      have g1 : es[i]? = some w := by rw [List.getElem?_eq_getElem hi, e']
      exact ih i _ w (List.getElem?_eq_getElem (h3 ▸ hi)) g1 (fun h => hE (.npObj _ _ _ w hw h)) h
  | @column sh e el es h1 h2 _ ih =>
    intro h
    cases h with
    | npObj _ _ _ w hw h =>
      obtain ⟨i, hi, e'⟩ := List.mem_iff_getElem.mp hw
      have g1 : es[i]? = some w := by rw [List.getElem?_eq_getElem hi, e']
      exact ih i _ w (List.getElem?_eq_getElem (h2 ▸ hi)) g1 (fun h => hE (.npObj _ _ _ w hw h)) h
  | @dict v names shown keys parts vals _ hf hl hs hn hk hv _ ih =>
    intro h
    cases h with
    | key _ _ _ w hw h =>
      obtain ⟨t, _, rfl⟩ := List.mem_map.mp hw
      cases h
    | val _ _ _ w hw h =>
      obtain ⟨j, hj, e⟩ := List.mem_iff_getElem.mp hw
      have g1 : vals[j]? = some w := by rw [List.getElem?_eq_getElem hj, e]
      have g2 : keys[j]? = some (keys[j]'(hv ▸ hj)) := List.getElem?_eq_getElem _
      obtain ⟨i, P, g3, g4⟩ := named hl hs hk g2
      exact ih i j _ P w g3 g4 g2 g1 (fun h => hE (.dict _ _ _ w hw h)) h
  | one h => rw [← hd] at h; cases h
  | several h => rw [← hd] at h; cases h
  | emptyStruct c sh n ty e h0 => exact absurd (.here _ _ _ _ _ (rowShape_zero.mpr h0)) hE

end HS
