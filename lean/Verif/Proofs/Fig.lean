import Verif.Model.Fig
import Mathlib.Data.Rat.Lemmas
import Mathlib.Algebra.Order.Ring.Unbundled.Rat
/-! The points and styles of the lines. -/

namespace Sol.Fig

/-- The loop keeps the points inside. -/
theorem picked (lo hi : ℚ) (xs ys : List ℚ) (h : xs.length ≤ ys.length) (n : Nat) (hn : n ≤ xs.length) :
    ∃ px py, (List.range n).foldlM (pick lo hi xs ys) ([], []) = some (px, py) ∧ px.length = py.length ∧
      px.zip py = ((xs.zip ys).take n).filter fun p => decide (lo ≤ p.1 ∧ p.1 ≤ hi) := by
  induction n with
  | zero => exact ⟨[], [], rfl, rfl, rfl⟩
  | succ n ih =>
    obtain ⟨px, py, h1, h2, h3⟩ := ih (by omega)
    have hx : xs[n]? = some xs[n] := List.getElem?_eq_getElem (by omega)
    have hy : ys[n]? = some ys[n] := List.getElem?_eq_getElem (by omega)
    have hz : (xs.zip ys)[n]? = some (xs[n], ys[n]) := by
      rw [List.getElem?_zip_eq_some]
      exact ⟨hx, hy⟩
    rw [List.range_succ, List.foldlM_append, h1, List.take_add_one, hz]
    simp only [Option.bind_eq_bind, Option.bind_some, List.foldlM_cons, List.foldlM_nil, pick, hx, hy, Option.map_some,
      Option.toList_some, List.filter_append]
    by_cases hin : lo ≤ xs[n] ∧ xs[n] ≤ hi
    · refine ⟨px ++ [xs[n]], py ++ [ys[n]], by rw [if_pos hin]; rfl, by simp [h2], ?_⟩
      rw [List.zip_append h2, h3]
      simp [hin]
    · refine ⟨px, py, by rw [if_neg hin]; rfl, h2, ?_⟩
      rw [h3, List.filter_cons_of_neg (by simpa using hin), List.filter_nil, List.append_nil]

/-- Line `k` of a figure. -/
theorem draw_line {xlim : Option (ℚ × ℚ)} {i c m : Nat} {data : List (List ℚ × List ℚ)} {r : List (Style × List ℚ × List ℚ)}
    (h : draw xlim i c m data = some r) : r.length = data.length ∧ ∀ k s p, r[k]? = some (s, p) →
      styleOf (i + k) (c + k) (m + k) = some s ∧ ∃ d, data[k]? = some d ∧ points xlim d.1 d.2 = some p := by
  induction data generalizing i c m r with
  | nil =>
    obtain rfl := Option.some.inj h
    exact ⟨rfl, fun k s p hk => by simp at hk⟩
  | cons d l ih =>
    obtain ⟨xs, ys⟩ := d
    simp only [draw, Option.bind_eq_some_iff, Option.map_eq_some_iff] at h
    obtain ⟨s, h1, p, h2, r', h3, rfl⟩ := h
    obtain ⟨h4, h5⟩ := ih h3
    refine ⟨by simp [h4], fun k s' p' hk => ?_⟩
    cases k with
    | zero =>
      obtain ⟨rfl, rfl⟩ := Prod.mk.inj (Option.some.inj hk)
      exact ⟨h1, (xs, ys), rfl, h2⟩
    | succ k =>
      obtain ⟨h6, h7⟩ := h5 k s' p' hk
      refine ⟨?_, h7⟩
      rw [← h6]
      congr 1 <;> omega

theorem draw_total {xlim : Option (ℚ × ℚ)} {data : List (List ℚ × List ℚ)} (h : ∀ d ∈ data, d.1.length ≤ d.2.length) (i c m : Nat) :
    ∃ r, draw xlim i c m data = some r := by
  induction data generalizing i c m with
  | nil => exact ⟨[], rfl⟩
  | cons d l ih =>
    obtain ⟨r, hr⟩ := ih (fun e he => h e (by simp [he])) (i + 1) (c + 1) (m + 1)
    have hp : ∃ p, points xlim d.1 d.2 = some p := by
      cases xlim with
      | none => exact ⟨_, rfl⟩
      | some b =>
        obtain ⟨px, py, h1, -⟩ := picked b.1 b.2 d.1 d.2 (h d (by simp)) d.1.length le_rfl
        exact ⟨_, h1⟩
    obtain ⟨p, hp⟩ := hp
    have hc : c % colourList.length < colourList.length := Nat.mod_lt _ (by decide)
    have hm : m % markerList.length < markerList.length := Nat.mod_lt _ (by decide)
    simp only [draw, styleOf, List.getElem?_eq_getElem hc, List.getElem?_eq_getElem hm, Option.bind_some, Option.map_some, hp, hr]
    exact ⟨_, rfl⟩

/-- Different places of the lists hold different entries. -/
theorem style_eq {i j c m c' m' : Nat} {s t : Style} (hs : styleOf i c m = some s) (ht : styleOf j c' m' = some t) :
    s.zorder = 200 - i ∧ ((s.colour = t.colour ↔ c % 8 = c' % 8) ∧ (s.marker = t.marker ↔ m % 9 = m' % 9)) := by
  simp only [styleOf, Option.bind_eq_some_iff, Option.map_eq_some_iff] at hs ht
  obtain ⟨a, h1, b, h2, rfl⟩ := hs
  obtain ⟨a', h3, b', h4, rfl⟩ := ht
  have hc : colourList.Nodup := by decide +kernel
  have hm : markerList.Nodup := by decide +kernel
  have e1 : colourList.length = 8 := rfl
  have e2 : markerList.length = 9 := rfl
  rw [e1] at h1 h3
  rw [e2] at h2 h4
  refine ⟨rfl, ⟨fun h => ?_, fun h => ?_⟩, fun h => ?_, fun h => ?_⟩
  · dsimp only at h
    subst h
    exact (List.getElem?_inj (by rw [e1]; exact Nat.mod_lt _ (by decide)) hc).1 (h1.trans h3.symm)
  · rw [h] at h1
    exact Option.some.inj (h1.symm.trans h3)
  · dsimp only at h
    subst h
    exact (List.getElem?_inj (by rw [e2]; exact Nat.mod_lt _ (by decide)) hm).1 (h2.trans h4.symm)
  · rw [h] at h2
    exact Option.some.inj (h2.symm.trans h4)

end Sol.Fig
