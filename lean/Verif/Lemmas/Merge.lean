import Verif.Model.Read
import Verif.Spec.Values
import Verif.Lemmas.Unicode
/-
`dict(items)` on keys that are strings.
-/
namespace HS
open Spec

theorem sameKey_str (a b : Str) : sameKey (.str a) (.str b) = (a == b) := by
  unfold sameKey keyId
  cases h : a == b <;> simp_all

theorem keyText_id {a : Val} {s : Str} (h : KeyText a s) : keyId a = some (false, s) ∨ ∃ b, utf8Enc s = .ok b ∧ keyId a = some (true, b) := by
  cases h with
  | str => exact Or.inl rfl
  | bytes _ b hb => exact Or.inr ⟨b, hb, rfl⟩
  | npStr => exact Or.inl rfl
  | npBytes _ b hb =>
    refine Or.inr ⟨b, hb, ?_⟩
    unfold npBytes mkBytesArr keyId
    simp

theorem sameKey_text {a b : Val} {s t : Str} (ha : KeyText a s) (hb : KeyText b t) (h : sameKey a b = true) : s = t := by
  have he : keyId a = keyId b := by
    unfold sameKey at h
    simpa using (Bool.and_eq_true_iff.mp h).2
  rcases keyText_id ha with h1 | ⟨x, h1, h2⟩ <;> rcases keyText_id hb with h3 | ⟨y, h3, h4⟩
  · rw [h1, h3] at he; cases he; rfl
  · rw [h1, h4] at he; cases he
  · rw [h2, h3] at he; cases he
  · rw [h2, h4] at he; cases he
    have e := (utf8Dec_enc _ _ h1).symm.trans (utf8Dec_enc _ _ h3)
    cases e; rfl

theorem foldl_put (l acc : List (Val × Val)) (h1 : l.Pairwise fun a b => sameKey a.1 b.1 = false) (h2 : ∀ a ∈ acc, ∀ b ∈ l, sameKey a.1 b.1 = false) :
    l.foldl dictPut acc = acc ++ l := by
  induction l generalizing acc with
  | nil => simp
  | cons p l ih =>
    rw [List.foldl_cons]
    have e : dictPut acc p = acc ++ [p] := by
      unfold dictPut
      rw [if_neg]
      intro h
      obtain ⟨q, hq, hs⟩ := List.any_eq_true.mp h
      rw [h2 q hq p (by simp)] at hs
      cases hs
    rw [e, ih _ (List.pairwise_cons.mp h1).2, List.append_assoc]
    · rfl
    · intro a ha b hb
      rcases List.mem_append.mp ha with ha | ha
      · exact h2 a ha b (by simp [hb])
      · rw [List.mem_singleton] at ha
        subst ha
        exact (List.pairwise_cons.mp h1).1 b hb

theorem mergeItems_zip {keys : List Val} {texts : List Str} (hk : All2 KeyText keys texts) (hn : texts.Nodup) (vals : List Val) :
    mergeItems (keys.zip vals) = keys.zip vals := by
  unfold mergeItems
  rw [foldl_put _ [] ?_ (by simp), List.nil_append]
  induction hk generalizing vals with
  | nil => exact List.Pairwise.nil
  | @cons k t keys texts h1 h2 ih =>
    cases vals with
    | nil => exact List.Pairwise.nil
    | cons v vals =>
      rw [List.zip_cons_cons, List.pairwise_cons]
      refine ⟨?_, ih (List.nodup_cons.mp hn).2 vals⟩
      rintro ⟨k', v'⟩ hm
      have hk' := (List.of_mem_zip hm).1
      have : ∃ t' ∈ texts, KeyText k' t' := by
        clear ih hm hn
        induction h2 with
        | nil => cases hk'
        | @cons a s as ss g1 g2 ih =>
          rcases List.mem_cons.mp hk' with rfl | h
          · exact ⟨s, by simp, g1⟩
          · obtain ⟨t', ht, hh⟩ := ih h
            exact ⟨t', by simp [ht], hh⟩
      obtain ⟨t', ht', hkt⟩ := this
      cases hs : sameKey k k' with
      | false => rfl
      | true =>
        have := sameKey_text h1 hkt hs
        subst this
        exact absurd ht' (List.nodup_cons.mp hn).1

/-- What a dict made of items is. -/
structure Merged (l m : List (Val × Val)) : Prop where
  dist : m.Pairwise fun a b => sameKey a.1 b.1 = false
  from' : ∀ p ∈ m, (∃ v, (p.1, v) ∈ l) ∧ ∃ k, (k, p.2) ∈ l ∧ (k = p.1 ∨ sameKey p.1 k = true)
  all : ∀ p ∈ l, ∃ q ∈ m, q.1 = p.1 ∨ sameKey q.1 p.1 = true

theorem merged_put {l m : List (Val × Val)} (h : Merged l m) (p : Val × Val) : Merged (l ++ [p]) (dictPut m p) := by
  unfold dictPut
  split
  · rename_i hs
    refine ⟨?_, ?_, ?_⟩
    · rw [List.pairwise_map]
      refine h.dist.imp ?_
      intro a b hab
      split <;> split <;> exact hab
    · intro q hq
      obtain ⟨r, hr, rfl⟩ := List.mem_map.mp hq
      obtain ⟨⟨v, h1⟩, k, h2, h3⟩ := h.from' r hr
      split
      · rename_i he
        exact ⟨⟨v, by simp [h1]⟩, p.1, by simp, Or.inr he⟩
      · exact ⟨⟨v, by simp [h1]⟩, k, by simp [h2], h3⟩
    · intro q hq
      rcases List.mem_append.mp hq with hq | hq
      · obtain ⟨r, hr, he⟩ := h.all q hq
        refine ⟨_, List.mem_map.mpr ⟨r, hr, rfl⟩, ?_⟩
        split <;> exact he
      · rw [List.mem_singleton] at hq
        subst hq
        obtain ⟨r, hr, he⟩ := List.any_eq_true.mp hs
        refine ⟨_, List.mem_map.mpr ⟨r, hr, rfl⟩, ?_⟩
        rw [if_pos he]
        exact Or.inr he
  · rename_i hs
    refine ⟨?_, ?_, ?_⟩
    · rw [List.pairwise_append]
      refine ⟨h.dist, by simp, ?_⟩
      intro a ha b hb
      rw [List.mem_singleton] at hb
      subst hb
      cases he : sameKey a.1 b.1 with
      | false => rfl
      | true => exact absurd (List.any_eq_true.mpr ⟨a, ha, he⟩) hs
    · intro q hq
      rcases List.mem_append.mp hq with hq | hq
      · obtain ⟨⟨v, h1⟩, k, h2, h3⟩ := h.from' q hq
        exact ⟨⟨v, by simp [h1]⟩, k, by simp [h2], h3⟩
      · rw [List.mem_singleton] at hq
        subst hq
        exact ⟨⟨q.2, by simp⟩, q.1, by simp, Or.inl rfl⟩
    · intro q hq
      rcases List.mem_append.mp hq with hq | hq
      · obtain ⟨r, hr, he⟩ := h.all q hq
        exact ⟨r, by simp [hr], he⟩
      · exact ⟨q, by simp at hq; simp [hq], Or.inl rfl⟩

theorem merged_items (l : List (Val × Val)) : Merged l (mergeItems l) := by
  have key : ∀ (r l' m : List (Val × Val)), Merged l' m → Merged (l' ++ r) (r.foldl dictPut m) := by
    intro r
    induction r with
    | nil => intro l' m h; simpa using h
    | cons p r ih =>
      intro l' m h
      have := ih _ _ (merged_put h p)
      rwa [List.append_assoc, List.singleton_append] at this
  have := key l [] [] ⟨List.Pairwise.nil, by simp, by simp⟩
  simpa [mergeItems] using this

end HS
