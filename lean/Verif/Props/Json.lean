import Verif.Proofs.JsonMore
import Verif.Proofs.JsonWrite
/-!
# C57, C58: the JSON text of the settings
-/

namespace Sol.Props
open Sol.Json Sol.Spec Sol.FloatText

/-- What may be behind the end of a text in its storage: nothing, or the 0 that ends it and then anything. -/
def Behind (junk : List Char) : Prop := ∀ c ∈ junk.head?, c = '\x00'

theorem behind_stop {junk : List Char} (h : Behind junk) : Stop junk := fun c hc => by
  rw [h c hc]
  decide

/-- C57: what the writer prints for a value is JSON text, and the reader reads it as the same value, with numbers rounded to six
    digits and null instead of what is not a number. -/
theorem C57_written_partial {k : Nat} {v : Value} (h : Writable k v) (hk : k ≤ 1000) :
    ∃ v', Kept v v' ∧ JsonText k (write v) v' ∧
      ∀ junk, Behind junk → ∀ n, 2 * (write v ++ junk).length + 2 ≤ n → parse n (write v) junk = some (.value v') := by
  obtain ⟨w, t, e, hg, ht⟩ := write_text h (fun _ => true) (fun _ _ => rfl) true [] (by simp [Gap])
  rw [List.filter_true] at e
  have hj : JsonText k (write v) (again v) := ⟨w, t, ['\n'], hg, ht, by simp [Gap], by rw [write, e, List.append_assoc]⟩
  refine ⟨again v, kept_again h, hj, fun junk hb n hn => parse_text ?_ (behind_stop hb) hn⟩
  exact ⟨w, t, ['\n'], hg, val_more ht hk, by simp [Gap], by rw [write, e, List.append_assoc]⟩

/-- C57: values without real numbers are read as they were written. -/
theorem C57_exact_partial {k : Nat} {v : Value} (h : Writable k v) (hk : k ≤ 1000) (hr : NoReals v) (junk : List Char) (hb : Behind junk)
    (n : Nat) (hn : 2 * (write v ++ junk).length + 2 ≤ n) : parse n (write v) junk = some (.value v) := by
  obtain ⟨v', h1, _, h3⟩ := C57_written_partial h hk
  have := h3 junk hb n hn
  rwa [same_of_kept h1 hr] at this

/-- C58: the reader ends on every text, with the same result however many more steps it is given. -/
theorem C58_ends_partial (text junk : List Char) :
    ∃ r, ∀ n, 2 * (text ++ junk).length + 2 ≤ n → parse n text junk = some r := parse_stable text junk

/-- C58: JSON text is read to the value that it stands for, if it is nested at most 1000 deep. -/
theorem C58_reads_partial {text junk : List Char} {v : Value} (h : JsonText 1000 text v) (hb : Behind junk) {n : Nat}
    (hn : 2 * (text ++ junk).length + 2 ≤ n) : parse n text junk = some (.value v) := parse_text h (behind_stop hb) hn

/-- A text stands for one value. -/
theorem C58_unambiguous_partial {text : List Char} {v v' : Value} (h : JsonText 1000 text v) (h' : JsonText 1000 text v') : v = v' := by
  have h1 := C58_reads_partial (junk := []) h (by simp [Behind]) le_rfl
  rw [C58_reads_partial (junk := []) h' (by simp [Behind]) le_rfl] at h1
  cases h1
  rfl

/-! ### Concrete texts -/

/-- Some settings. -/
def settings : Value :=
  .obj (.cons "a\"b".toList (.real (.fin (1 / 8))) (.cons "n".toList (.int (-3)) (.cons "o".toList
    (.obj (.cons "t".toList (.str "x\ny".toList) .nil)) (.cons "z".toList (.real .nan) .nil))))

theorem C57_instance :
    Writable 3 settings ∧
    write settings = "{\n\t\"a\\\"b\" : 0.125,\n\t\"n\" : -3,\n\t\"o\" : \n\t{\n\t\t\"t\" : \"x\\ny\"\n\t},\n\t\"z\" : null\n}\n".toList ∧
    parse 200 (write settings) ['\x00', '7'] = some (.value
      (.obj (.cons "a\"b".toList (.real (.fin (1 / 8))) (.cons "n".toList (.int (-3)) (.cons "o".toList
        (.obj (.cons "t".toList (.str "x\ny".toList) .nil)) (.cons "z".toList .null .nil)))))) := by
  refine ⟨?_, by decide +kernel, by decide +kernel⟩
  refine .obj (.cons (by decide) (.real ⟨1, -3, by norm_num, by norm_num, by norm_num, by norm_num⟩) (.cons (by decide)
    (.int (by decide) (by decide)) (.cons (by decide) (.obj (.cons (by decide) .str .nil) (by decide)) (.cons (by decide) .nan .nil)))) ?_
  rw [← List.pairwise_map (f := fun p : List Char × Value => p.1) (R := fun a b => a < b)]
  decide

/-- Every byte in a string, and integers at the limits, are read as written. -/
theorem C57_instance_bytes :
    (∀ n < 256, parse 50 (write (.str ['<', Char.ofNat n, '"'])) [] = some (.value (.str ['<', Char.ofNat n, '"']))) ∧
    (∀ n < 256, '\n' ∉ (write (.str [Char.ofNat n])).dropLast) ∧
    (∀ n ∈ ([0, -1, 2147483648, -2 ^ 63, 2 ^ 64 - 1] : List Int), parse 100 (write (.int n)) [] = some (.value (.int n))) := by
  decide +kernel

/-- C57 is false as stated: an infinite number is written as one that the reader refuses. -/
theorem C57_is_violated :
    write (.obj (.cons "eta".toList (.real .pinf) .nil)) = "{\n\t\"eta\" : 1e+9999\n}\n".toList ∧
    parse 100 (write (.obj (.cons "eta".toList (.real .pinf) .nil))) [] = some .failed := by
  decide +kernel

theorem C58_instance :
    JsonText 1000 " [ -0.5e1 , {\"k\":true,\"k\":\"\\u0041\"} ]\n".toList
      (.arr (.cons (.real (.fin (-5))) (.cons (.obj (.cons "k".toList (.str "A".toList) .nil)) .nil))) ∧
    parse 100 " [ -0.5e1 , {\"k\":true,\"k\":\"\\u0041\"} ]\n".toList ['\x00'] =
      some (.value (.arr (.cons (.real (.fin (-5))) (.cons (.obj (.cons "k".toList (.str "A".toList) .nil)) .nil)))) ∧
    parse 100 "{\"k\" 1}".toList [] = some .failed := by
  refine ⟨?_, by decide +kernel, by decide +kernel⟩
  have num : ValText 999 "-0.5e1".toList (.real (.fin (-5))) := by
    refine .num (NumText.real (sgn := ['-']) (ds := ['0']) (ft := ['.', '5']) (et := ['e', '1']) .minus ⟨by decide, .inl rfl⟩
      (.some ['5'] (by decide)) (by decide) (.some 'e' (.inl rfl) [] 1 .none ['1'] (by decide) (by decide)) (.inl (by decide)) ?_)
    decide +kernel
  have s : StrText "\\u0041".toList "A".toList := by
    have := StrText.unicode (x := "0041".toList) (u := 65) (by unfold Hex4; decide) (.inl (by decide)) .nil
    rwa [show encode 65 ++ [] = "A".toList by decide] at this
  have key : StrText "k".toList "k".toList := .char (by decide) (by decide) (by decide) .nil
  have nil : Gap [] := by simp [Gap]
  have obj : ValText 999 "{\"k\":true,\"k\":\"\\u0041\"}".toList (.obj (.cons "k".toList (.str "A".toList) .nil)) := by
    refine .obj (.more (w1 := []) (w2 := []) (w3 := []) (w4 := []) nil key nil nil .yes nil
      (.one (w1 := []) (w2 := []) (w3 := []) (w4 := []) nil key nil nil (.str s) nil)) ⟨by simp [entries], ?_⟩
    intro k
    simp only [entries, List.reverse_cons, List.reverse_nil, List.nil_append, List.cons_append, List.lookup_cons]
    split <;> simp
  exact ⟨[' '], _, ['\n'], by decide, .arr (.more (w1 := [' ']) (w2 := [' ']) (by decide) num (by decide)
    (.one (w1 := [' ']) (w2 := [' ']) (by decide) obj (by decide))), by decide, rfl⟩

/-- Nested arrays. -/
def nested : Nat → Value
  | 0 => .arr .nil
  | n + 1 => .arr (.cons (nested n) .nil)

theorem nested_text (n : Nat) : ValText (n + 1) (List.replicate (n + 1) '[' ++ List.replicate (n + 1) ']') (nested n) := by
  induction n with
  | zero => exact .arrNil (w := []) (by simp [Gap])
  | succ n ih =>
    have := ValText.arr (.one (w1 := []) (w2 := []) (by simp [Gap]) ih (by simp [Gap]))
    have e : List.replicate (n + 2) '[' ++ List.replicate (n + 2) ']' =
        '[' :: ([] ++ ((List.replicate (n + 1) '[' ++ List.replicate (n + 1) ']') ++ []) ++ [']']) := by
      rw [List.replicate_succ (n := n + 1) (a := '['), List.replicate_succ' (n := n + 1) (a := ']')]
      simp
    rw [e]
    exact this

/-- Objects in each other. -/
def nestedObj : Nat → Value
  | 0 => .obj .nil
  | n + 1 => .obj (.cons ['a'] (nestedObj n) .nil)

/-- The text of objects in each other. -/
def objText (n : Nat) : List Char := (List.replicate n "{\"a\":".toList).flatten ++ '{' :: List.replicate (n + 1) '}'

/-- Texts and what they are read as. -/
theorem C58_instance_texts :
    (∀ e ∈ ([("18446744073709551615", .int (2 ^ 64 - 1)), ("18446744073709551616", .real (.fin (2 ^ 64))),
        ("9223372036854775809", .int (2 ^ 63 + 1)), ("-9223372036854775808", .int (-2 ^ 63)), ("-9223372036854775809", .real (.fin (-2 ^ 63))),
        ("99999999999999999999", .real (.fin 100000000000000000000)), ("184467440737095516150", .real (.fin 184467440737095516160)),
        ("1E+2", .real (.fin 100)), ("25e-2", .real (.fin (1 / 4))), ("0.1", .real (.fin (3602879701896397 / 36028797018963968))),
        ("\t\r\n [ ]", .arr .nil), ("[1,[2],3]", .arr (.cons (.int 1) (.cons (.arr (.cons (.int 2) .nil)) (.cons (.int 3) .nil)))),
        ("[true,false,null]", .arr (.cons (.bool true) (.cons (.bool false) (.cons .null .nil)))),
        ("\"\\\"\\\\\\/\\b\\f\\n\\r\\t\"", .str ['"', '\\', '/', '\x08', '\x0c', '\n', '\r', '\t']),
        ("\"\\u00e9\\u07FF\\u20ac\\uaBcD\\ud83d\\ude00\"",
          .str (List.map Char.ofNat [0xc3, 0xa9, 0xdf, 0xbf, 0xe2, 0x82, 0xac, 0xea, 0xaf, 0x8d, 0xf0, 0x9f, 0x98, 0x80])),
        ("{\"b\":1,\"a\":2,\"b\":3}", .obj (.cons ['a'] (.int 2) (.cons ['b'] (.int 3) .nil))), ("{ }", .obj .nil),
        ("/* * */1", .int 1), ("// x\n1", .int 1)] : List (String × Value)), parse 200 e.1.toList [] = some (.value e.2)) ∧
    (∀ t ∈ ["", "]", "[1", "[1,]", "[1 2]", "{1:2}", "{\"a\"}", "{\"a\":1,}", "{\"a\":1,2}", "\"\\x\"", "\"\\u12\"", "\"a", "tru", "+1", ".5",
        "1e", "/", "/*"], parse 200 t.toList ['\x00', '1'] = some .failed) ∧
    parse 20000 (objText 999) [] = some (.value (nestedObj 999)) ∧ parse 20000 (objText 1000) [] = some .thrown := by
  refine ⟨by decide +kernel, by decide +kernel, by decide +kernel, by decide +kernel⟩

/-- C58 is false as stated: the reader throws for JSON text that is nested 1001 deep, and refuses valid numbers that are too large;
    it also accepts texts that are not JSON: without a comma after a comment, with a comma at the end, a lone minus sign, and
    anything behind the value. -/
theorem C58_is_violated :
    (JsonText 1001 (List.replicate 1001 '[' ++ List.replicate 1001 ']') (nested 1000) ∧
      parse 5000 (List.replicate 1001 '[' ++ List.replicate 1001 ']') [] = some .thrown) ∧
    parse 50 "1e400".toList [] = some .failed ∧
    parse 50 "{\"a\":1/**/;\"b\":2}".toList [] = some (.value (.obj (.cons ['a'] (.int 1) (.cons ['b'] (.int 2) .nil)))) ∧
    parse 50 "{\"\":1,}".toList [] = some (.value (.obj (.cons [] (.int 1) .nil))) ∧
    parse 50 "[-]".toList [] = some (.value (.arr (.cons (.int 0) .nil))) ∧
    parse 50 "1 ]x".toList [] = some (.value (.int 1)) := by
  refine ⟨⟨⟨[], _, [], by simp [Gap], nested_text 1000, by simp [Gap], by rw [List.nil_append, List.append_nil]⟩, by decide +kernel⟩, by decide +kernel⟩

end Sol.Props
