import Verif.Lemmas.Local
import Verif.Lemmas.ProgressAll
import Verif.Lemmas.Away
import Verif.Spec.Limit
/-
Lemmas for the recursion limit.
-/
namespace HS
open Spec

theorem nestingL_mem {l : List Val} {v : Val} (h : v ∈ l) : nesting v ≤ nestingL l := by
  induction l with
  | nil => cases h
  | cons a l ih =>
    rw [nestingL]
    rcases List.mem_cons.mp h with rfl | h
    · omega
    · have := ih h; omega

theorem nestingL_pos (l : List Val) : 1 ≤ nestingL l := by
  induction l with
  | nil => rw [nestingL]; omega
  | cons a l ih => rw [nestingL]; omega

theorem nestingL_le {l : List Val} {n : Nat} (hn : 1 ≤ n) (h : ∀ v ∈ l, nesting v ≤ n) : nestingL l ≤ n := by
  induction l with
  | nil => rw [nestingL]; omega
  | cons a l ih =>
    rw [nestingL]
    have := ih fun v hv => h v (by simp [hv])
    have := h a (by simp)
    omega

/-- A relation between computations that goes through `bind`. -/
structure Sim (T : (α : Type) → M α → M α → Prop) : Prop where
  refl : ∀ (α : Type) (a : M α), T α a a
  bind : ∀ {α β : Type} {a b : M α} {f g : α → M β}, T α a b → (∀ x, T β (f x) (g x)) → T β (a >>= f) (b >>= g)

/-- What succeeds in `a` does the same in `b`. -/
def Le (α : Type) (a b : M α) : Prop := ∀ s r s', a s = (.ok r, s') → b s = (.ok r, s')

theorem sim_eq : Sim fun _ a b => a = b := ⟨fun _ _ => rfl, fun h1 h2 => by rw [h1, funext h2]⟩

theorem sim_le : Sim Le := by
  refine ⟨fun _ _ _ _ _ h => h, fun {α β a b f g} h1 h2 s r s' h => ?_⟩
  rcases bind_run a f s with ⟨x, s1, h3, h4⟩ | ⟨e, s1, _, h4⟩
  · rw [h4] at h
    rw [run_bind_ok (h1 _ _ _ h3)]
    exact h2 x _ _ _ h
  · rw [h4] at h; cases h

/-- The two writers are related on the value. -/
def SimOn (T : (α : Type) → M α → M α → Prop) (wr wr' : Wr) (v : Val) : Prop := ∀ g gn nm, T _ (wr g gn nm v) (wr' g gn nm v)

variable {T : (α : Type) → M α → M α → Prop} {x : Ctx} {wr wr' : Wr}

theorem writeElems_sim (hT : Sim T) {r c : Nat} {vs : List Val} (h : ∀ v ∈ vs, SimOn T wr wr' v) : T _ (writeElems x wr r c vs) (writeElems x wr' r c vs) := by
  induction vs with
  | nil => exact hT.refl _ _
  | cons v vs ih =>
    have ih := ih fun w hw => h w (by simp [hw])
    rw [writeElems, writeElems]
    refine hT.bind (hT.refl _ _) fun nm => hT.bind (h v (by simp) _ _ _) fun ob => ?_
    cases ob with
    | none => exact hT.bind ih fun _ => hT.refl _ _
    | some p => exact hT.bind (hT.refl _ _) fun _ => hT.bind ih fun _ => hT.refl _ _

theorem writeNpObj_sim (hT : Sim T) {g : Nat} {name : Str} {c : Cont} {shape : List Nat} {elems : List Val} {ts : Str} (h : ∀ v, v ∈ elems ∨ v = .none → SimOn T wr wr' v) :
    T _ (writeNpObj x wr g name c shape elems ts) (writeNpObj x wr' g name c shape elems ts) := by
  unfold writeNpObj
  dsimp only
  refine hT.bind ?_ fun _ => hT.refl _ _
  split
  · exact hT.refl _ _
  · refine hT.bind ?_ fun _ => hT.refl _ _
    unfold writeObjectArray
    refine hT.bind (hT.refl _ _) fun _ => hT.bind (hT.refl _ _) fun _ => writeElems_sim hT fun v hv => h v ?_
    split at hv
    · unfold transposeData at hv
      obtain ⟨i, _, rfl⟩ := List.mem_map.mp hv
      generalize ravelN _ _ = j
      rw [List.getD_eq_getElem?_getD]
      cases hj : elems[j]? with
      | none => exact Or.inr rfl
      | some w => exact Or.inl (List.mem_of_getElem? hj)
    · exact Or.inl hv

theorem writeItems_sim (hT : Sim T) {g : Nat} {gn : Str} {l : List (Str × Val)} (h : ∀ kv ∈ l, SimOn T wr wr' kv.2) : T _ (writeItems x wr g gn l) (writeItems x wr' g gn l) := by
  induction l with
  | nil => exact hT.refl _ _
  | cons kv l ih =>
    obtain ⟨k, v⟩ := kv
    have ih := ih fun w hw => h w (by simp [hw])
    rw [writeItems, writeItems]
    refine hT.bind (h (k, v) (by simp) _ _ _) fun ob => ?_
    cases ob with
    | none => exact ih
    | some p => exact hT.bind (hT.refl _ _) fun _ => ih

theorem writeFields_sim (hT : Sim T) {g : Nat} {gn : Str} {ot : Bool} {l : List (Str × Val)} (h : ∀ kv ∈ l, SimOn T wr wr' kv.2) :
    T _ (writeFields x wr g gn ot l) (writeFields x wr' g gn ot l) := by
  induction l with
  | nil => exact hT.refl _ _
  | cons kv l ih =>
    obtain ⟨k, v⟩ := kv
    have ih := ih fun w hw => h w (by simp [hw])
    rw [writeFields, writeFields]
    refine hT.bind (h (k, v) (by simp) _ _ _) fun ob => ?_
    cases ob with
    | none => exact ih
    | some p => exact hT.bind (hT.refl _ _) fun _ => ih

theorem writeDict_sim (hT : Sim T) {g : Nat} {gn name : Str} {keys vals : List Val} {st : Bool} {ts : Str} (h1 : SimOn T wr wr' (.seq .tuple keys))
    (h2 : SimOn T wr wr' (.seq .tuple vals)) (h3 : ∀ v ∈ vals, SimOn T wr wr' v) :
    T _ (writeDict x wr g gn name keys vals st ts) (writeDict x wr' g gn name keys vals st ts) := by
  unfold writeDict
  dsimp only
  refine hT.bind (hT.refl _ _) fun g2 => hT.bind (hT.refl _ _) fun _ => hT.bind (hT.refl _ _) fun _ => hT.bind (hT.refl _ _) fun _ => hT.bind (writeItems_sim hT ?_) fun _ =>
    hT.refl _ _
  intro kv hkv
  cases hi : keyInfos keys with
  | none =>
    rw [hi] at hkv
    simp only [List.mem_cons, List.not_mem_nil, or_false] at hkv
    rcases hkv with rfl | rfl
    · exact h1
    · exact h2
  | some l =>
    rw [hi] at hkv
    exact h3 _ (List.of_mem_zip (a := kv.1) (b := kv.2) hkv).2

theorem writeStruct_sim (hT : Sim T) {g : Nat} {gn name : Str} {c : Cont} {shape : List Nat} {names : List Str} {types : List FT} {elems : List Val} {ts : Str}
    (h : ∀ kv, ∀ esc, kv ∈ structItems x.o shape esc elems → SimOn T wr wr' kv.2) :
    T _ (writeStruct x wr g gn name c shape names types elems ts) (writeStruct x wr' g gn name c shape names types elems ts) := by
  unfold writeStruct
  split
  · exact hT.refl _ _
  split
  · exact hT.refl _ _
  refine hT.bind (hT.refl _ _) fun esc => ?_
  split
  · exact hT.refl _ _
  split
  · unfold writeGroup
    exact hT.bind (hT.refl _ _) fun _ => hT.bind (hT.refl _ _) fun _ => hT.bind (writeFields_sim hT fun kv hkv => h kv esc hkv) fun _ => hT.refl _ _
  · exact hT.refl _ _

/-- One level of writing. -/
theorem writeData_step (hT : Sim T) {n m : Nat} {v : Val} (h : ∀ w, nesting w < nesting v → SimOn T (writeData x n) (writeData x m) w) :
    SimOn T (writeData x (n + 1)) (writeData x (m + 1)) v := by
  intro g gn nm
  rw [writeData, writeData]
  cases v with
  | npObj c shape elems =>
    refine writeNpObj_sim hT fun w hw => h w ?_
    rw [nesting]
    rcases hw with hw | rfl
    · have := nestingL_mem hw; omega
    · have := nestingL_pos elems; rw [nesting]; · omega
      all_goals nofun
  | seq k elems =>
    refine writeNpObj_sim hT fun w hw => h w ?_
    rw [nesting]
    rcases hw with hw | rfl
    · have := nestingL_mem hw; omega
    · have := nestingL_pos elems; rw [nesting]; · omega
      all_goals nofun
  | dict k keys vals =>
    refine writeDict_sim hT (h _ ?_) (h _ ?_) fun w hw => h w ?_
    · rw [nesting, nesting]; omega
    · rw [nesting, nesting]; omega
    · have := nestingL_mem hw
      rw [nesting]; omega
  | record k vals =>
    refine writeDict_sim hT (h _ ?_) (h _ ?_) fun w hw => h w ?_
    · have : nestingL (k.fieldNames.map Val.str) ≤ 1 := nestingL_le (Nat.le_refl _) (by
        intro v hv
        obtain ⟨s, _, rfl⟩ := List.mem_map.mp hv
        rw [nesting]; · omega
        all_goals nofun)
      have := nestingL_pos vals
      rw [nesting, nesting]; omega
    · rw [nesting, nesting]; omega
    · have := nestingL_mem hw
      rw [nesting]; omega
  | npStruct c shape names types elems =>
    refine writeStruct_sim hT fun kv esc hkv => h _ ?_
    unfold structItems at hkv
    obtain ⟨col, hcol, hv⟩ := List.mem_map.mp (List.of_mem_zip (a := kv.1) (b := kv.2) hkv).2
    rw [← hv]
    have hm := splitCols_mem hcol
    have := nestingL_pos elems
    unfold fieldValue
    split
    · cases col with
      | nil =>
        show nesting .none < _
        rw [nesting, nesting]
        · omega
        all_goals nofun
      | cons a col =>
        have := nestingL_mem (hm a (by simp))
        show nesting a < _
        rw [nesting]; omega
    · have := nestingL_le (nestingL_pos elems) (l := col) fun v hv => nestingL_mem (hm v hv)
      rw [nesting, nesting]; omega
  | _ => exact hT.refl _ _

/-- Writing that succeeded does the same with every larger limit. -/
theorem writeData_mono (n : Nat) {m : Nat} (h : n ≤ m) (v : Val) : SimOn Le (writeData x n) (writeData x m) v := by
  induction n generalizing m v with
  | zero => intro g gn nm s r s' hw; cases hw
  | succ n ih =>
    obtain ⟨m, rfl⟩ : ∃ k, m = k + 1 := ⟨m - 1, by omega⟩
    exact writeData_step sim_le fun w _ => ih (by omega) w

/-- Writing is the same with all limits that are not smaller than the nesting. -/
theorem writeData_limit (n : Nat) {m : Nat} (h : n ≤ m) (v : Val) (hv : nesting v ≤ n) : SimOn (fun _ a b => a = b) (writeData x n) (writeData x m) v := by
  induction n generalizing m v with
  | zero =>
    exfalso
    have : 1 ≤ nesting v := by
      cases v <;> rw [nesting] <;> first | omega | nofun
    omega
  | succ n ih =>
    obtain ⟨m, rfl⟩ : ∃ k, m = k + 1 := ⟨m - 1, by omega⟩
    exact writeData_step sim_eq fun w hw => ih (by omega) w (by omega)

theorem writeMany_sim (hT : Sim T) {n m : Nat} {l : List ((Str × Str) × Val)} (h : ∀ gv ∈ l, SimOn T (writeData x n) (writeData x m) gv.2) : T _ (writeMany x n l) (writeMany x m l) := by
  induction l with
  | nil => exact hT.refl _ _
  | cons gv l ih =>
    obtain ⟨gt, v⟩ := gv
    rw [writeMany, writeMany]
    refine hT.bind ?_ fun _ => ih fun w hw => h w (by simp [hw])
    unfold writeOne
    exact hT.bind (hT.refl _ _) fun g => h (gt, v) (by simp) _ _ _

/-- Reading is the same with all limits that are not smaller than the depth. -/
theorem readData_limit {o : COpts} {h : Heap} {ex : Option Nat} {n m q : Nat} (hd : StoredDepth h n q) (hm : n ≤ m) :
    readData o (viewOf h) ex m q = readData o (viewOf h) ex n q := by
  induction hd generalizing m with
  | mk n q hp ih =>
    obtain ⟨m, rfl⟩ : ∃ k, m = k + 1 := ⟨m - 1, by omega⟩
    rw [readData, readData]
    dsimp only
    unfold viewOf at *
    cases hob : h[q]? with
    | none => rfl
    | some ob =>
      rw [Option.map_some]
      dsimp only
      have ag : Agree (looksMulti fun p => (h[p]?).map Obj.view) (looksMulti fun p => (h[p]?).map Obj.view) (readData o (fun p => (h[p]?).map Obj.view) ex n)
          (readData o (fun p => (h[p]?).map Obj.view) ex m) ex ex ob.view.body := fun r hr =>
        ⟨ih ob r hob hr (by omega), Iff.rfl, rfl⟩
      simp only [readNp_congr ag, readTyped_congr ag]

theorem mapM_ok_mem {α β : Type} {f : α → Res β} {l : List α} {a : α} {v : List β} (ha : a ∈ l) (h : l.mapM f = .ok v) : ∃ b, f a = .ok b := by
  induction l generalizing v with
  | nil => cases ha
  | cons b l ih =>
    rw [List.mapM_cons] at h
    obtain ⟨w, hw, h⟩ := res_bind_ok.mp h
    obtain ⟨u, hu, _⟩ := res_bind_ok.mp h
    rcases List.mem_cons.mp ha with rfl | ha
    · exact ⟨w, hw⟩
    · exact ih ha hu

theorem res_bind_error {α β : Type} {a : Res α} {f : α → Res β} (h : ∀ v, a = .ok v → ∃ e, f v = .error e) : ∃ e, (a >>= f) = .error e := by
  cases ha : a with
  | error e => exact ⟨e, rfl⟩
  | ok v => exact h v ha

/-- A sequence one of whose elements cannot be read cannot be read. -/
theorem readData_seq_err {o : COpts} {h : Heap} {ex : Option Nat} {n q r : Nat} {attrs : List (Str × AVal)} {a : Arr} {f : Filters} {t : Str} {e : Exc}
    (h1 : h[q]? = some ⟨attrs, .dset a f⟩) (h2 : a.dt = .ref) (h3 : El.ref r ∈ a.data) (h4 : t ∈ seqTypes) (h5 : aget attrs p!"Python.Type" = some (.bytes t))
    (he : readData o (viewOf h) ex n r = .error e) : ∃ e', readData o (viewOf h) ex (n + 1) q = .error e' := by
  have hv : viewOf h q = some (Obj.view ⟨attrs, .dset a f⟩) := by unfold viewOf; rw [h1]; rfl
  have hb : (Obj.view ⟨attrs, .dset a f⟩).body = .dset a f := rfl
  have ht : aget (Obj.view ⟨attrs, .dset a f⟩).attrs p!"Python.Type" = some (.bytes t) := by rw [← h5]; exact aget_view _ _ (by decide)
  generalize Obj.view ⟨attrs, .dset a f⟩ = ob at hv hb ht
  have hnp : ∀ mu, ∃ e', readNp mu (readData o (viewOf h) ex n) o ex ob = .error e' := by
    intro mu
    unfold readNp
    refine res_bind_error fun _ _ => res_bind_error fun _ _ => res_bind_error fun _ _ => res_bind_error fun _ _ => res_bind_error fun _ _ => ?_
    rw [hb]
    dsimp only
    obtain ⟨e', h'⟩ : ∃ e', readDset (readData o (viewOf h) ex n) a = .error e' := by
      unfold readDset
      rw [if_pos h2]
      refine res_bind_error fun v hv' => ?_
      obtain ⟨b, hb'⟩ := mapM_ok_mem h3 hv'
      have hb'' : readData o (viewOf h) ex n r = .ok b := hb'
      rw [he] at hb''
      cases hb''
    rw [h']
    exact ⟨e', rfl⟩
  rw [readData]
  dsimp only
  rw [hv]
  dsimp only
  rw [ht]
  obtain ⟨e', h'⟩ := hnp (looksMulti (viewOf h))
  refine res_bind_error fun ts hts => res_bind_error fun _ _ => ?_
  have : ts = some t := by
    have hd : ∀ t ∈ seqTypes, attrToString (some (.bytes t)) = .ok (some t) := by decide
    rw [hd t h4] at hts; cases hts; rfl
  subst this
  dsimp only
  have hs : ∀ t ∈ seqTypes, ∀ R : Res Val, (if t = p!"builtins.NoneType" then (.ok .none : Res Val) else if t = p!"builtins.ellipsis" then .ok .ellipsis
    else if t = p!"builtins.NotImplementedType" then .ok .notImplemented else R) = R := by
    intro t ht R
    simp only [seqTypes, List.mem_cons, List.not_mem_nil, or_false] at ht
    rcases ht with rfl | rfl | rfl | rfl | rfl | rfl <;> rfl
  unfold readTyped
  rw [hs t h4, h']
  have hk : ∀ t ∈ seqTypes, t ∉ [p!"bool", p!"int", p!"long", p!"float", p!"complex"] ∧ t ∉ [p!"str", p!"bytes", p!"bytearray"] ∧ t ≠ p!"numpy.dtype" ∧ (seqKindOf t).isSome = true := by
    decide
  obtain ⟨k1, k2, k3, k4⟩ := hk t h4
  rw [if_neg k1, if_neg k2, if_neg k3]
  cases hq : seqKindOf t with
  | none => rw [hq] at k4; cases k4
  | some k => exact ⟨e', rfl⟩

/-- What the object refers to, for computing examples. -/
def heldBy : Body → List Nat
  | .group l => l.map (·.2)
  | .dset a _ => if a.dt = .ref then a.data.filterMap fun e => match e with | .ref q => some q | _ => none else []

theorem heldBy_mem {b : Body} {q : Nat} (h : Holds b q) : q ∈ heldBy b := by
  cases b with
  | group l =>
    obtain ⟨k, hk⟩ := h
    exact List.mem_map.mpr ⟨(k, q), aget_mem _ _ _ hk, rfl⟩
  | dset a f =>
    rw [heldBy, if_pos h.1]
    exact List.mem_filterMap.mpr ⟨_, h.2, rfl⟩

/-- `StoredDepth`, for computing examples. -/
def depthOk (h : Heap) : Nat → Nat → Bool
  | 0, _ => false
  | n + 1, q =>
    match h[q]? with
    | none => true
    | some ob => (heldBy ob.body).all (depthOk h n)

theorem depthOk_stored {h : Heap} {n q : Nat} (hd : depthOk h n q = true) : StoredDepth h n q := by
  induction n generalizing q with
  | zero => cases hd
  | succ n ih =>
    refine .mk n q fun ob r ho hr => ih ?_
    rw [depthOk, ho] at hd
    exact List.all_eq_true.mp hd r (heldBy_mem hr)

/-- `TooDeep`, for computing examples. -/
def deepOk (h : Heap) : Nat → Nat → Bool
  | 0, _ => true
  | n + 1, q =>
    match h[q]? with
    | some ⟨attrs, .dset a _⟩ => decide (a.dt = .ref) && (seqTypes.any fun t => decide (aget attrs p!"Python.Type" = some (.bytes t))) &&
        a.data.any fun e => match e with | .ref r => deepOk h n r | _ => false
    | _ => false

theorem deepOk_too {h : Heap} {n q : Nat} (hd : deepOk h n q = true) : TooDeep h n q := by
  induction n generalizing q with
  | zero => exact .zero q
  | succ n ih =>
    rw [deepOk] at hd
    split at hd
    · rename_i attrs a f ho
      rw [Bool.and_eq_true, Bool.and_eq_true, List.any_eq_true, List.any_eq_true] at hd
      obtain ⟨⟨h1, t, h2, h3⟩, e, h4, h5⟩ := hd
      cases e with
      | ref r => exact .step n q r attrs a f t ho (of_decide_eq_true h1) h4 h2 (of_decide_eq_true h3) (ih h5)
      | _ => cases h5
    · cases hd

end HS
