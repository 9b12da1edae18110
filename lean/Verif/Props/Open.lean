import Verif.Lemmas.Open
/-
C42, C43: opening a file on disk, and MATLAB's header.
-/
namespace HS
open Spec

theorem headerText_line {v wd mo : Str} {now : DateTime} (h1 : tupleGet weekdays now.weekday = .ok wd) (h2 : tupleGet months (now.month - 1) = .ok mo) :
    headerText v now = .ok (headerLine v wd mo (dig2 now.day) (dig2 now.hour) (dig2 now.minute) (dig2 now.second) (decDigits now.year)) := by
  unfold headerText
  rw [h1, h2]
  simp only [bind, Except.bind]
  congr 1
  unfold headerLine strftime
  simp only [List.append_assoc]
  rfl

theorem headerLine_ascii {v wd mo dd hh mm ss yyyy : Str} (hv : ∀ c ∈ v, 32 ≤ c ∧ c < 127) (w : ∀ c ∈ wd, 32 ≤ c ∧ c < 127) (m : ∀ c ∈ mo, 32 ≤ c ∧ c < 127)
    (e1 : ∀ c ∈ dd, 32 ≤ c ∧ c < 127) (e2 : ∀ c ∈ hh, 32 ≤ c ∧ c < 127) (e3 : ∀ c ∈ mm, 32 ≤ c ∧ c < 127) (e4 : ∀ c ∈ ss, 32 ≤ c ∧ c < 127)
    (e5 : ∀ c ∈ yyyy, 32 ≤ c ∧ c < 127) : ∀ c ∈ headerLine v wd mo dd hh mm ss yyyy, 32 ≤ c ∧ c < 127 := by
  have app : ∀ {a b : Str}, (∀ c ∈ a, 32 ≤ c ∧ c < 127) → (∀ c ∈ b, 32 ≤ c ∧ c < 127) → ∀ c ∈ a ++ b, 32 ≤ c ∧ c < 127 := by
    intro a b h1 h2 c hc
    rcases List.mem_append.mp hc with h | h
    · exact h1 c h
    · exact h2 c h
  have con : ∀ {x : Nat} {b : Str}, (32 ≤ x ∧ x < 127) → (∀ c ∈ b, 32 ≤ c ∧ c < 127) → ∀ c ∈ x :: b, 32 ≤ c ∧ c < 127 := by
    intro x b h1 h2 c hc
    rcases List.mem_cons.mp hc with h | h
    · subst h; exact h1
    · exact h2 c h
  unfold headerLine
  refine app (by decide) (app (by decide) (app hv (app (by decide) (app w (con (by decide) (app m (con (by decide) (app e1 (con (by decide) (app e2 (con (by decide)
    (app e3 (con (by decide) (app e4 (con (by decide) (app e5 (by decide)))))))))))))))))

theorem headerLine_length {v wd mo dd hh mm ss yyyy : Str} (w : wd.length = 3) (m : mo.length = 3) (l1 : dd.length = 2) (l2 : hh.length = 2) (l3 : mm.length = 2)
    (l4 : ss.length = 2) (y : yyyy.length = 4) : (headerLine v wd mo dd hh mm ss yyyy).length = 100 + v.length := by
  unfold headerLine
  simp only [List.length_append, List.length_cons, List.length_nil, w, m, l1, l2, l3, l4, y]
  omega

theorem headerLine_prefix {v wd mo dd hh mm ss yyyy : Str} : p!"MATLAB 7.3 MAT-file" <+: headerLine v wd mo dd hh mm ss yyyy :=
  List.IsPrefix.trans (by decide) (List.prefix_append _ _)

/-- The header for any version text of up to 16 printable ASCII characters. -/
theorem header_spec {v : Str} (hv : ∀ c ∈ v, 32 ≤ c ∧ c < 127) (hl : v.length ≤ 16) {now : DateTime} (ht : ValidTime now) :
    ∃ hdr wd mo dd hh mm ss yyyy, header v now = .ok hdr ∧ dayNames[now.weekday]? = some wd ∧ monthNames[now.month - 1]? = some mo ∧
      natOfDec dd = .ok now.day ∧ natOfDec hh = .ok now.hour ∧ natOfDec mm = .ok now.minute ∧ natOfDec ss = .ok now.second ∧ natOfDec yyyy = .ok now.year ∧
      wd.length = 3 ∧ mo.length = 3 ∧ dd.length = 2 ∧ hh.length = 2 ∧ mm.length = 2 ∧ ss.length = 2 ∧ yyyy.length = 4 ∧
      MatHeader hdr (headerLine v wd mo dd hh mm ss yyyy) := by
  obtain ⟨wd, w1, w2, w3, w4⟩ := weekday_text ht.weekday
  obtain ⟨mo, m1, m2, m3, m4⟩ := month_text (i := now.month - 1) (by have := ht.month; omega)
  have y1 := decDigits_length4 ht.year.1 ht.year.2
  have y3 : ∀ c ∈ decDigits now.year, 32 ≤ c ∧ c < 127 := fun c hc => by have := decDigits_range now.year c hc; omega
  have d1 := dig2_value (n := now.day) (by have := ht.day; omega)
  have d2 := dig2_value (n := now.hour) (by have := ht.hour; omega)
  have d3 := dig2_value (n := now.minute) (by have := ht.minute; omega)
  have d4 := dig2_value (n := now.second) (by have := ht.second; omega)
  have ht0 := headerText_line (v := v) w1 m1
  have hascii := headerLine_ascii hv w4 m4 (dig2_ascii (n := now.day)) (dig2_ascii (n := now.hour)) (dig2_ascii (n := now.minute)) (dig2_ascii (n := now.second)) y3
  have hlen := headerLine_length (v := v) (dd := dig2 now.day) (hh := dig2 now.hour) (mm := dig2 now.minute) (ss := dig2 now.second) w3 m3 rfl rfl rfl rfl y1
  have hpre := headerLine_prefix (v := v) (wd := wd) (mo := mo) (dd := dig2 now.day) (hh := dig2 now.hour) (mm := dig2 now.minute) (ss := dig2 now.second) (yyyy := decDigits now.year)
  suffices h : ∃ hdr, header v now = .ok hdr ∧ MatHeader hdr (headerLine v wd mo (dig2 now.day) (dig2 now.hour) (dig2 now.minute) (dig2 now.second) (decDigits now.year)) by
    obtain ⟨hdr, h1, h2⟩ := h
    exact ⟨hdr, wd, mo, _, _, _, _, _, h1, w2, m2, d1, d2, d3, d4, natOfDec_decDigits _, w3, m3, rfl, rfl, rfl, rfl, y1, h2⟩
  generalize headerLine v wd mo (dig2 now.day) (dig2 now.hour) (dig2 now.minute) (dig2 now.second) (decDigits now.year) = text at ht0 hascii hlen hpre
  have henc : utf8Enc (text ++ List.replicate (128 - 12 - text.length) 32) = .ok (text ++ List.replicate (128 - 12 - text.length) 32) := by
    apply utf8Enc_ascii
    intro c hc
    rcases List.mem_append.mp hc with hc | hc
    · have := hascii c hc; omega
    · have := (List.mem_replicate.mp hc).2; omega
  have hhd : header v now = .ok (text ++ List.replicate (128 - 12 - text.length) 32 ++ [0, 0, 0, 0, 0, 0, 0, 0, 0x00, 0x02, 0x49, 0x4D]) := by
    unfold header
    rw [ht0]
    simp only [bind, Except.bind]
    rw [henc]
  have hl1 : (text ++ List.replicate (128 - 12 - text.length) 32).length = 116 := by simp; omega
  refine ⟨_, hhd, ?_, hpre, hascii, ?_, ?_⟩
  · rw [List.length_append, hl1]; rfl
  · exact ⟨_, List.take_left' hl1⟩
  · exact List.drop_left' hl1

/-- C43. The header is 128 bytes, well formed, and gives the time. -/
theorem C43_header {now : DateTime} (ht : ValidTime now) :
    ∃ hdr wd mo dd hh mm ss yyyy, header libVersion now = .ok hdr ∧ dayNames[now.weekday]? = some wd ∧ monthNames[now.month - 1]? = some mo ∧
      natOfDec dd = .ok now.day ∧ natOfDec hh = .ok now.hour ∧ natOfDec mm = .ok now.minute ∧ natOfDec ss = .ok now.second ∧ natOfDec yyyy = .ok now.year ∧
      wd.length = 3 ∧ mo.length = 3 ∧ dd.length = 2 ∧ hh.length = 2 ∧ mm.length = 2 ∧ ss.length = 2 ∧ yyyy.length = 4 ∧
      MatHeader hdr (headerLine p!"0.2" wd mo dd hh mm ss yyyy) :=
  header_spec (by decide) (by decide) ht

-- 17 November 2026 was a Tuesday.
example : ValidTime ⟨2026, 11, 17, 21, 21, 5, 1⟩ ∧ (header libVersion ⟨2026, 11, 17, 21, 21, 5, 1⟩).map (fun h => h.take 103) =
    .ok p!"MATLAB 7.3 MAT-file, Platform: hdf5storage 0.2, Created on: Tue Nov 17 21:21:05 2026 HDF5 schema 1.00 ." :=
  ⟨⟨by decide, by decide, by decide, by decide, by decide, by decide, by decide⟩, by decide +kernel⟩

/-- Facts about the header needed for writing it. -/
theorem header_first {v : Str} (hv : ∀ c ∈ v, 32 ≤ c ∧ c < 127) (hl : v.length ≤ 16) {now : DateTime} (ht : ValidTime now) :
    ∃ hdr, header v now = .ok hdr ∧ hdr.length = 128 ∧ (∃ text, MatHeader hdr text) ∧ ∀ k c, (hdr.take k).head? = some c → c = 77 := by
  obtain ⟨hdr, _, _, _, _, _, _, _, h1, _, _, _, _, _, _, _, _, _, _, _, _, _, _, hm⟩ := header_spec hv hl ht
  refine ⟨hdr, h1, hm.1, ⟨_, hm⟩, ?_⟩
  obtain ⟨_, h2, _, ⟨n, h3⟩, _⟩ := hm
  obtain ⟨r, hr⟩ := h2
  intro k c hc
  cases k with
  | zero => simp at hc
  | succ k =>
    rw [List.head?_take, if_neg (by omega)] at hc
    have : (hdr.take 116).head? = some 77 := by
      rw [h3, ← hr]; rfl
    rw [List.head?_take, if_neg (by omega)] at this
    rw [this] at hc
    cases hc; rfl

/-- The moment and the version are such that the header can be made. -/
structure EnvOk (e : OpenEnv) : Prop where
  version : ∀ c ∈ e.version, 32 ≤ c ∧ c < 127
  short : e.version.length ≤ 16
  time : ValidTime e.now

theorem h5Open_ok {e : OpenEnv} {b : Bytes} {n : Nat} : h5Open e b = .ok n ↔ HasUserblock b n ∧ e.valid (b.drop n) = true := by
  unfold h5Open
  constructor
  · intro h
    cases hu : userblockSize b with
    | none => rw [hu] at h; cases h
    | some m =>
      rw [hu] at h
      dsimp only at h
      split at h
      · rename_i hv; cases h; exact ⟨userblockSize_iff.mp hu, hv⟩
      · cases h
  · rintro ⟨h1, h2⟩
    rw [userblockSize_iff.mpr h1]
    dsimp only
    rw [if_pos h2]

/-- What writing the header does to the file. -/
theorem putHeader_spec {e : OpenEnv} (he : EnvOk e) {b : Bytes} {n : Nat} (hn : 128 ≤ n) (hb : HasUserblock b n) (hv : e.valid (b.drop n) = true) :
    ∃ hdr, header e.version e.now = .ok hdr ∧ hdr.length = 128 ∧ (∃ text, MatHeader hdr text) ∧ (putHeader e b).2 = .ok () ∧
      (putHeader e b).1.getLast? = some (overwrite b hdr) ∧
      ∀ s ∈ (putHeader e b).1, s.length = b.length ∧ s.drop 128 = b.drop 128 ∧ (∀ m, HasUserblock s m ↔ HasUserblock b m) := by
  obtain ⟨hdr, h1, h2, h3, h4⟩ := header_first he.version he.short he.time
  have hbl := userblock_len hb
  refine ⟨hdr, h1, h2, h3, ?_⟩
  have key : ∀ k, ((overwrite b (hdr.take k)).length = b.length ∧ (overwrite b (hdr.take k)).drop 128 = b.drop 128 ∧
      (∀ m, HasUserblock (overwrite b (hdr.take k)) m ↔ HasUserblock b m)) := by
    intro k
    have hl : (hdr.take k).length ≤ 128 := by rw [List.length_take]; omega
    exact ⟨overwrite_length (by omega), overwrite_drop hl, overwrite_userblock hb hn hl (h4 k)⟩
  have hfull : hdr.take 128 = hdr := List.take_of_length_le (by omega)
  unfold putHeader
  rw [h1]
  dsimp only
  rw [h2]
  refine ⟨?_, ?_, ?_⟩
  · have : h5Open e (overwrite b hdr) = .ok n := by
      rw [h5Open_ok]
      refine ⟨by rw [← hfull]; exact ((key 128).2.2 n).mpr hb, ?_⟩
      rw [overwrite_drop (by omega)]; exact hv
    rw [this]; rfl
  · rw [show (128 : Nat) = 127 + 1 from rfl, List.range_succ, List.map_append, List.map_singleton, List.getLast?_append]
    rw [show (127 + 1 : Nat) = 128 from rfl, hfull]; rfl
  · intro s hs
    obtain ⟨k, _, rfl⟩ := List.mem_map.mp hs
    exact key _

/-- C42. If the user did not ask for the file to be thrown away, then whenever a crash happens the file has the length it had and the same bytes from 128 on, and
its userblock is as large as before (so HDF5 sees the same file); and it is changed at all only if it is opened for writing with MATLAB compatibility and has
a userblock of 128 bytes or more. -/
theorem C42_keeps {e : OpenEnv} (he : EnvOk e) (a : OpenArgs) (b : Bytes) (ha : ¬ AskedToTruncate a b) (s : Option Bytes) (hs : s ∈ crashStates (some b) (openFile e a (some b))) :
    ∃ b', s = some b' ∧ b'.length = b.length ∧ b'.drop 128 = b.drop 128 ∧ (∀ n, HasUserblock b' n ↔ HasUserblock b n) ∧
      (b' ≠ b → a.writable = true ∧ a.matlab = true ∧ ∃ n, HasUserblock b n ∧ 128 ≤ n) := by
  have same : ∀ r, s ∈ crashStates (some b) (([], r) : Trace) → ∃ b', s = some b' ∧ b'.length = b.length ∧ b'.drop 128 = b.drop 128 ∧
      (∀ n, HasUserblock b' n ↔ HasUserblock b n) ∧ (b' ≠ b → a.writable = true ∧ a.matlab = true ∧ ∃ n, HasUserblock b n ∧ 128 ≤ n) := by
    intro r h
    simp only [crashStates, List.map_nil, List.mem_singleton] at h
    exact ⟨b, h, rfl, rfl, fun _ => Iff.rfl, fun h => absurd rfl h⟩
  unfold openFile at hs
  cases hw : a.writable with
  | false =>
    rw [hw] at hs
    rw [← hw]
    exact same _ hs
  | true =>
    rw [hw] at hs
    simp only [Bool.not_true, Bool.false_eq_true, if_false] at hs
    have ht : a.truncExisting = false := by
      cases h : a.truncExisting with
      | false => rfl
      | true => exact absurd ⟨hw, Or.inl h⟩ ha
    rw [ht] at hs
    simp only [Bool.false_eq_true, if_false] at hs
    rw [hw] at same
    cases ho : h5Open e b with
    | error err => rw [ho] at hs; exact same _ hs
    | ok n =>
      rw [ho] at hs
      dsimp only at hs
      obtain ⟨hb, hv⟩ := h5Open_ok.mp ho
      rw [if_neg (by rintro ⟨h1, h2, h3⟩; exact ha ⟨hw, Or.inr ⟨h1, h2, n, hb, h3⟩⟩)] at hs
      unfold openRest at hs
      split at hs
      · rename_i hm
        obtain ⟨_, _, _, _, _, _, h5⟩ := putHeader_spec he hm.2 hb hv
        unfold crashStates at hs
        rcases List.mem_cons.mp hs with rfl | hs
        · exact ⟨b, rfl, rfl, rfl, fun _ => Iff.rfl, fun h => absurd rfl h⟩
        · obtain ⟨b', hb', rfl⟩ := List.mem_map.mp hs
          obtain ⟨h6, h7, h8⟩ := h5 b' hb'
          exact ⟨b', rfl, h6, h7, h8, fun _ => ⟨rfl, hm.1, n, hb, hm.2⟩⟩
      · exact same _ hs

/-- C42. A file that is not opened for writing is not made or changed. -/
theorem C42_readonly (e : OpenEnv) (a : OpenArgs) (d : Option Bytes) (ha : a.writable = false) : crashStates d (openFile e a d) = [d] := by
  unfold openFile
  rw [ha]
  cases d <;> rfl

/-- C42. A file that HDF5 cannot open is not changed unless `truncate_existing` is given, and opening it raises `OSError`. -/
theorem C42_not_hdf5 (e : OpenEnv) (a : OpenArgs) (b : Bytes) (ha : a.writable = true → a.truncExisting = false) (hb : ∀ n, HasUserblock b n → e.valid (b.drop n) = false) :
    crashStates (some b) (openFile e a (some b)) = [some b] ∧ (openFile e a (some b)).2 = .error .osError := by
  have ho : h5Open e b = .error .osError := by
    unfold h5Open
    cases hu : userblockSize b with
    | none => rfl
    | some n =>
      dsimp only
      rw [hb n (userblockSize_iff.mp hu)]; rfl
  unfold openFile
  cases hw : a.writable with
  | false =>
    simp only [Bool.not_false, if_true]
    rw [ho]; exact ⟨rfl, rfl⟩
  | true =>
    simp only [Bool.not_true, Bool.false_eq_true, if_false]
    rw [ha hw]
    simp only [Bool.false_eq_true, if_false]
    rw [ho]; exact ⟨rfl, rfl⟩

theorem getLastD_append_some {α : Type} {l : List α} {a : α} {d : α} (h : l.getLast? = some a) : l.getLastD d = a := by
  rw [List.getLastD_eq_getLast?, h]; rfl

/-- C42. If the user did ask for it, or there is no file, the result is a new file; with MATLAB compatibility it has the header. -/
theorem C42_new {e : OpenEnv} (he : EnvOk e) (hf : FreshOk e) (a : OpenArgs) (d : Option Bytes) (hw : a.writable = true)
    (hd : d = none ∨ ∃ b n, d = some b ∧ HasUserblock b n ∧ e.valid (b.drop n) = true ∧ AskedToTruncate a b) :
    (openFile e a d).2 = .ok () ∧ ∃ b', finalState d (openFile e a d) = some b' ∧ b'.drop 128 = e.fresh.drop 128 ∧ HasUserblock b' 512 ∧
      (a.matlab = false → b' = e.fresh) ∧ (a.matlab = true → ∃ text, MatHeader (b'.take 128) text) := by
  have hnew : openFile e a d = openNew e a := by
    unfold openFile
    rw [hw]
    simp only [Bool.not_true, Bool.false_eq_true, if_false]
    rcases hd with rfl | ⟨b, n, rfl, hb, hv, ht⟩
    · rfl
    · dsimp only
      split
      · rfl
      · rename_i hte
        rw [h5Open_ok.mpr ⟨hb, hv⟩]
        dsimp only
        rcases ht.2 with h | ⟨h1, h2, m, h3, h4⟩
        · exact absurd h hte
        · rw [if_pos ⟨h1, h2, by rw [userblock_unique hb h3]; exact h4⟩]
  rw [hnew]
  unfold openNew
  rw [h5Open_ok.mpr ⟨hf.ub, hf.valid⟩]
  dsimp only
  unfold openRest
  cases hm : a.matlab with
  | false =>
    rw [if_neg (by simp)]
    exact ⟨rfl, e.fresh, rfl, rfl, hf.ub, fun _ => rfl, fun h => by cases h⟩
  | true =>
    rw [if_pos ⟨rfl, by omega⟩]
    obtain ⟨hdr, h1, h2, h3, h4, h5, h6⟩ := putHeader_spec he (by omega) hf.ub hf.valid
    refine ⟨h4, overwrite e.fresh hdr, ?_, overwrite_drop (by omega), ?_, (fun h => by cases h), ?_⟩
    · unfold finalState
      apply getLastD_append_some
      unfold crashStates
      rw [List.map_cons, List.map_cons, List.getLast?_cons_cons, List.getLast?_cons_cons]
      rw [List.getLast?_cons, List.getLast?_map, h5]; rfl
    · exact ((h6 _ (List.mem_of_getLast? h5)).2.2 512).mpr hf.ub
    · intro _
      have : (overwrite e.fresh hdr).take 128 = hdr := List.take_left' h2
      rw [this]; exact h3

theorem drop_split {n : Nat} (h : 128 ≤ n) (l : Bytes) : l.drop n = (l.drop 128).drop (n - 128) := by
  rw [List.drop_drop, Nat.add_sub_cancel' h]

/-- C42 and C43. After any crash during an opening that was not to truncate, opening again (at another time, with MATLAB compatibility and without asking for truncation) a
valid file with a large enough userblock succeeds and leaves the complete header and otherwise the file there was at the start. -/
theorem C42_recovers {e e' : OpenEnv} (he : EnvOk e) (he' : EnvOk e') (hvalid : e'.valid = e.valid) (a a' : OpenArgs) (b : Bytes) (ha : ¬ AskedToTruncate a b) (n : Nat)
    (hb : HasUserblock b n) (hn : 128 ≤ n) (hv : e.valid (b.drop n) = true) (s : Option Bytes) (hs : s ∈ crashStates (some b) (openFile e a (some b)))
    (hw : a'.writable = true) (hm : a'.matlab = true) (ht : a'.truncExisting = false) :
    (openFile e' a' s).2 = .ok () ∧ ∃ b', finalState s (openFile e' a' s) = some b' ∧ b'.drop 128 = b.drop 128 ∧ (∃ text, MatHeader (b'.take 128) text) := by
  obtain ⟨c, rfl, h1, h2, h3, _⟩ := C42_keeps he a b ha s hs
  have hc : HasUserblock c n := (h3 n).mpr hb
  have hdn : c.drop n = b.drop n := by
    have h4 : c.drop n = (c.drop 128).drop (n - 128) := drop_split hn _
    have h5 : b.drop n = (b.drop 128).drop (n - 128) := drop_split hn _
    rw [h4, h5, h2]
  have hcv : e'.valid (c.drop n) = true := by rw [hvalid, hdn]; exact hv
  obtain ⟨hdr, h4, h5, h6, h7, h8, h9⟩ := putHeader_spec he' hn hc hcv
  have ho : openFile e' a' (some c) = putHeader e' c := by
    unfold openFile
    rw [hw, ht]
    simp only [Bool.not_true, Bool.false_eq_true, if_false]
    rw [h5Open_ok.mpr ⟨hc, hcv⟩]
    dsimp only
    rw [if_neg (by rintro ⟨_, _, h⟩; omega)]
    unfold openRest
    rw [if_pos ⟨hm, hn⟩]
  rw [ho]
  refine ⟨h7, overwrite c hdr, ?_, ?_, ?_⟩
  · unfold finalState
    apply getLastD_append_some
    unfold crashStates
    rw [List.getLast?_cons, List.getLast?_map, h8]; rfl
  · rw [overwrite_drop (by omega)]; exact h2
  · have : (overwrite c hdr).take 128 = hdr := List.take_left' h5
    rw [this]; exact h6

/-- C43. Whenever opening for writing with MATLAB compatibility succeeds and the file has a userblock of 128 bytes or more, it starts with the header. -/
theorem C43_file {e : OpenEnv} (he : EnvOk e) (hf : FreshOk e) (a : OpenArgs) (d : Option Bytes) (hw : a.writable = true) (hm : a.matlab = true)
    (hok : (openFile e a d).2 = .ok ()) : ∃ b' n, finalState d (openFile e a d) = some b' ∧ HasUserblock b' n ∧ (128 ≤ n → ∃ text, MatHeader (b'.take 128) text) := by
  cases d with
  | none =>
    obtain ⟨_, b', h1, _, h2, _, h3⟩ := C42_new he hf a none hw (Or.inl rfl)
    exact ⟨b', 512, h1, h2, fun _ => h3 hm⟩
  | some b =>
    by_cases ht : a.truncExisting = true
    · have hopen : openFile e a (some b) = openFile e a none := by unfold openFile; rw [hw, ht]; rfl
      obtain ⟨_, b', h1, _, h2, _, h3⟩ := C42_new he hf a none hw (Or.inl rfl)
      refine ⟨b', 512, ?_, h2, fun _ => h3 hm⟩
      rw [hopen]
      have : (openFile e a none).1 ≠ [] := by
        unfold openFile openNew
        rw [hw, h5Open_ok.mpr ⟨hf.ub, hf.valid⟩]
        simp
      unfold finalState crashStates at h1 ⊢
      cases hl : (openFile e a none).1 with
      | nil => exact absurd hl this
      | cons x l =>
        rw [hl] at h1
        rw [List.map_cons] at h1 ⊢
        rw [List.getLastD_eq_getLast?, List.getLast?_cons_cons] at h1 ⊢
        rw [List.getLast?_cons] at h1 ⊢
        exact h1
    · have ht : a.truncExisting = false := by simpa using ht
      have hok' := hok
      unfold openFile at hok'
      rw [hw, ht] at hok'
      simp only [Bool.not_true, Bool.false_eq_true, if_false] at hok'
      cases ho : h5Open e b with
      | error err => rw [ho] at hok'; cases hok'
      | ok n =>
        obtain ⟨hb, hv⟩ := h5Open_ok.mp ho
        by_cases htr : a.truncInvalid = true ∧ n < 128
        · obtain ⟨_, b', h1, _, h2, _, h3⟩ := C42_new he hf a (some b) hw (Or.inr ⟨b, n, rfl, hb, hv, hw, Or.inr ⟨hm, htr.1, n, hb, htr.2⟩⟩)
          exact ⟨b', 512, h1, h2, fun _ => h3 hm⟩
        · have hopen : openFile e a (some b) = openRest e a b n := by
            unfold openFile
            rw [hw, ht]
            simp only [Bool.not_true, Bool.false_eq_true, if_false]
            rw [ho]
            dsimp only
            rw [if_neg (fun h => htr h.2)]
          rw [hopen]
          unfold openRest
          by_cases hn : 128 ≤ n
          · rw [if_pos ⟨hm, hn⟩]
            obtain ⟨hdr, h4, h5, h6, h7, h8, h9⟩ := putHeader_spec he hn hb hv
            refine ⟨overwrite b hdr, n, ?_, ((h9 _ (List.mem_of_getLast? h8)).2.2 n).mpr hb, ?_⟩
            · unfold finalState
              apply getLastD_append_some
              unfold crashStates
              rw [List.getLast?_cons, List.getLast?_map, h8]; rfl
            · intro _
              have : (overwrite b hdr).take 128 = hdr := List.take_left' h5
              rw [this]; exact h6
          · rw [if_neg (fun h => hn h.2)]
            exact ⟨b, n, rfl, hb, fun h => absurd h hn⟩

/-- An environment for examples: every file with a superblock is accepted. -/
def exEnv : OpenEnv := ⟨fun _ => true, List.replicate 512 0 ++ h5sig, libVersion, ⟨2026, 11, 17, 21, 21, 5, 1⟩⟩

theorem ex_envOk : EnvOk exEnv := ⟨by decide, by decide, by decide, by decide, by decide, by decide, by decide, by decide, by decide⟩

theorem ex_userblock (l : Bytes) : HasUserblock (List.replicate 512 0 ++ h5sig ++ l) 512 := by
  refine ⟨Or.inr ⟨0, rfl⟩, ?_, ?_⟩
  · rw [List.append_assoc, List.drop_left' (List.length_replicate ..)]; rfl
  · intro m hm hlt
    have : m = 0 := by
      apply Decidable.byContradiction
      intro h0
      have := place_ge hm h0
      omega
    subst this
    intro h
    have h1 := congrArg List.head? h
    rw [List.drop_zero, List.head?_take, if_neg (by omega), List.append_assoc, List.head?_append, List.head?_replicate, if_neg (by omega)] at h1
    cases h1

-- A file with a userblock opened with MATLAB compatibility, and a new file.
example : EnvOk exEnv ∧ FreshOk exEnv ∧ (∀ l, HasUserblock (List.replicate 512 0 ++ h5sig ++ l) 512 ∧
    ¬ AskedToTruncate ⟨true, false, true, true⟩ (List.replicate 512 0 ++ h5sig ++ l)) := by
  refine ⟨ex_envOk, ⟨by have := ex_userblock []; rw [List.append_nil] at this; exact this, rfl⟩, fun l => ⟨ex_userblock l, ?_⟩⟩
  rintro ⟨_, h | ⟨_, _, n, hn, h⟩⟩
  · cases h
  · have := userblock_unique hn (ex_userblock l)
    omega

end HS
