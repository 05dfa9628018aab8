import Verif.Proofs.Fig
/-!
# C106: a figure shows every point within the limits, and its lines can be told apart
-/

namespace Sol.Props

open Sol.Fig

/-- A figure has one line for each of the data, and it consists of the points inside the limits, in their order. -/
theorem C106_points (lo hi : ℚ) (data : List (List ℚ × List ℚ)) (h : ∀ d ∈ data, d.1.length ≤ d.2.length) :
    ∃ r, plot (some (lo, hi)) data = some r ∧ r.length = data.length ∧
      ∀ (k : Nat) (s : Style) (px py : List ℚ), r[k]? = some (s, px, py) → px.length = py.length ∧
        ∃ d : List ℚ × List ℚ, data[k]? = some d ∧ px.zip py = (d.1.zip d.2).filter fun p => decide (lo ≤ p.1 ∧ p.1 ≤ hi) := by
  obtain ⟨r, hr⟩ := draw_total (xlim := some (lo, hi)) h 0 0 0
  obtain ⟨h1, h2⟩ := draw_line hr
  refine ⟨r, hr, h1, fun k s px py hk => ?_⟩
  obtain ⟨-, d, hd, hp⟩ := h2 k s (px, py) hk
  have hl := h d (List.mem_of_getElem? hd)
  obtain ⟨qx, qy, h3, h4, h5⟩ := picked lo hi d.1 d.2 hl d.1.length le_rfl
  obtain ⟨rfl, rfl⟩ := Prod.mk.inj (Option.some.inj (h3.symm.trans hp))
  refine ⟨h4, d, hd, ?_⟩
  rw [h5, List.take_of_length_le (by rw [List.length_zip]; omega)]

/-- Two lines have the same colour and the same marker only if their numbers differ by a multiple of 72; so up to 72 lines can be told apart.
    An earlier line lies above a later one, and all lie below a legend of order 201. -/
theorem C106_styles (xlim : Option (ℚ × ℚ)) (data : List (List ℚ × List ℚ)) (r : List (Style × List ℚ × List ℚ)) (h : plot xlim data = some r)
    (i j : Nat) (s t : Style) (p q : List ℚ × List ℚ) (hi : r[i]? = some (s, p)) (hj : r[j]? = some (t, q)) :
    ((s.colour = t.colour ∧ s.marker = t.marker) ↔ i % 72 = j % 72) ∧ (i < j → t.zorder < s.zorder) ∧ s.zorder < 201 := by
  obtain ⟨-, h2⟩ := draw_line h
  have hs := (h2 i s p hi).1
  have ht := (h2 j t q hj).1
  obtain ⟨z1, e1, e2⟩ := style_eq hs ht
  obtain ⟨z2, -⟩ := style_eq ht hs
  rw [e1, e2, z1, z2]
  refine ⟨⟨fun h => ?_, fun h => ?_⟩, ?_, ?_⟩ <;> omega

/-- Three lines, limits that cut two points off, and a line that is too short. -/
theorem C106_instance :
    plot (some (1, 3)) [([0, 1, 2], [5, 6, 7]), ([4], [1]), ([3], [9])] =
      some [(⟨"r", "s", 200⟩, [1, 2], [6, 7]), (⟨"m", "h", 199⟩, [], []), (⟨"k", "*", 198⟩, [3], [9])] ∧
    plot none [([0, 1, 2], [5, 6, 7])] = some [(⟨"r", "s", 200⟩, [0, 1, 2], [5, 6, 7])] ∧
    plot (some (1, 3)) [([0, 1, 2], [5, 6])] = none := by
  decide +kernel

end Sol.Props
