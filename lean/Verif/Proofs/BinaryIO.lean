import Verif.Model.BinaryIO
import Verif.Props.Codec
/-!
# Lemmas about the binary reader and writer
-/

namespace Sol.BinaryIO
open Sol.Compress

theorem leBytes_length (k n : Nat) : (leBytes k n).length = k := by
  induction k generalizing n with
  | zero => rfl
  | succ k ih => simp [leBytes, ih]

theorem leVal_leBytes (k n : Nat) : leVal (leBytes k n) = n % 256 ^ k := by
  induction k generalizing n with
  | zero => simp [leBytes, leVal, Nat.mod_one]
  | succ k ih =>
    have hb : (UInt8.ofNat (n % 256)).toNat = n % 256 := by rw [UInt8.toNat_ofNat']; omega
    rw [leBytes, leVal, ih, hb, Nat.pow_succ, Nat.mul_comm (256 ^ k), Nat.mod_mul]

theorem leVal_leBytes_of_lt {k n : Nat} (h : n < 256 ^ k) : leVal (leBytes k n) = n := by
  rw [leVal_leBytes, Nat.mod_eq_of_lt h]

theorem fileRead_append (b r : List UInt8) : fileRead (b ++ r) b.length = (.ok, b, r) := by
  unfold fileRead
  rw [if_pos (by simp)]
  simp

theorem fileRead_append' (b r : List UInt8) {n : Nat} (h : b.length = n) :
    fileRead (b ++ r) n = (.ok, b, r) := by
  subst h; exact fileRead_append b r

theorem fileRead_short {f : List UInt8} {n : Nat} (h : f.length < n) :
    fileRead f n = (.endOfFile, f, []) := by
  unfold fileRead
  rw [if_neg (by omega)]

theorem words_flatMap (vs : List UInt32) (rest : List UInt8) :
    words vs.length (vs.flatMap (fun v => leBytes 4 v.toNat) ++ rest) = vs := by
  induction vs with
  | nil => simp [words]
  | cons v vs ih =>
    rw [List.length_cons, words, List.flatMap_cons, List.append_assoc,
      List.take_left' (leBytes_length 4 _), List.drop_left' (leBytes_length 4 _), ih,
      leVal_leBytes_of_lt (by have := v.toNat_lt; omega)]
    simp

theorem values_length (vs : List UInt32) :
    (vs.flatMap (fun v => leBytes 4 v.toNat)).length = 4 * vs.length := by
  induction vs with
  | nil => rfl
  | cons v vs ih => simp [leBytes_length, ih]; omega

/-- What a storable point is: parallel vectors, and sizes that fit `size_t`. -/
def Storable (p : RawPoint) : Prop :=
  p.indexes.length = p.values.length ∧ 5 * p.indexes.length < 2 ^ 64

theorem label_bytes (l : UInt32) : UInt32.ofNat (leVal (leBytes 4 l.toNat)) = l := by
  rw [leVal_leBytes_of_lt (by have := l.toNat_lt; omega)]
  simp

theorem next_write (p : RawPoint) (rest : List UInt8) (h : Storable p) :
    next (write p ++ rest) = .ok ⟨.ok, p, rest⟩ := by
  obtain ⟨label, idx, vals⟩ := p
  obtain ⟨hlen, hsz⟩ := h
  simp only at hlen hsz
  unfold next write
  simp only
  rw [List.append_assoc, fileRead_append' _ _ (leBytes_length 4 _)]
  simp only [ne_eq, not_true_eq_false, if_false, label_bytes]
  rw [List.append_assoc, fileRead_append' _ _ (leBytes_length 8 _)]
  simp only [not_true_eq_false, if_false]
  rw [leVal_leBytes_of_lt (n := idx.length) (by omega)]
  by_cases h0 : idx.length > 0
  · rw [if_pos h0, if_pos h0, List.append_assoc, fileRead_append' _ _ (leBytes_length 8 _)]
    simp only [not_true_eq_false, if_false]
    have hcl := Sol.Props.C01_code_length idx
    rw [leVal_leBytes_of_lt (n := (compIndex idx).length) (by omega), List.append_assoc,
      fileRead_append]
    simp only [not_true_eq_false, if_false]
    rw [Sol.Props.C01_index_codec_roundtrip, Res.bind_ok]
    simp only [not_true_eq_false, if_false]
    rw [Nat.mod_eq_of_lt (by omega : 4 * idx.length < 2 ^ 64),
      fileRead_append' _ _ (by rw [values_length, hlen])]
    simp only [not_true_eq_false, if_false]
    have := words_flatMap vals []
    rw [List.append_nil] at this
    rw [hlen, this]
  · have hi : idx = [] := List.length_eq_zero_iff.1 (by omega)
    have hv : vals = [] := List.length_eq_zero_iff.1 (by omega)
    subst hi hv
    simp

theorem readAll_cons (p : RawPoint) (rest : List UInt8) (h : Storable p) :
    readAll (write p ++ rest) =
      (readAll rest >>= fun q => .ok (p :: q.1, q.2)) := by
  rw [readAll]
  split
  · rename_i heq
    rw [next_write p rest h] at heq
    simp at heq
  · rename_i r heq
    rw [next_write p rest h] at heq
    simp only [Res.ok.injEq] at heq
    subst heq
    simp only [dif_pos]
    cases readAll rest <;> rfl

theorem readAll_of_next {f : List UInt8} {r : NextResult} (h : next f = .ok r) (hs : r.status ≠ .ok) :
    readAll f = .ok ([], r.status) := by
  rw [readAll]
  split
  · rename_i heq; rw [h] at heq; simp at heq
  · rename_i r' heq
    rw [h] at heq
    simp only [Res.ok.injEq] at heq
    subst heq
    rw [dif_neg hs]

theorem readAll_of_next_ok {f : List UInt8} {r : NextResult} (h : next f = .ok r) (hs : r.status = .ok) :
    readAll f = (readAll r.rest >>= fun q => .ok (r.point :: q.1, q.2)) := by
  rw [readAll]
  split
  · rename_i heq; rw [h] at heq; simp at heq
  · rename_i r' heq
    rw [h] at heq
    simp only [Res.ok.injEq] at heq
    subst heq
    rw [dif_pos hs]
    cases readAll r.rest <;> rfl

theorem next_lt4 {f : List UInt8} (h : f.length < 4) :
    ∃ r, next f = .ok r ∧ r.status = .endOfFile := by
  unfold next
  rw [fileRead_short h]
  exact ⟨_, rfl, rfl⟩

theorem readAll_lt4 {f : List UInt8} (h : f.length < 4) : readAll f = .ok ([], .endOfFile) := by
  obtain ⟨r, h1, h2⟩ := next_lt4 h
  rw [readAll_of_next h1 (by rw [h2]; simp), h2]

theorem readAll_pre (pre : List RawPoint) (rest : List UInt8) (h : ∀ p ∈ pre, Storable p) :
    readAll (writeAll pre ++ rest) = (readAll rest >>= fun q => .ok (pre ++ q.1, q.2)) := by
  induction pre with
  | nil => simp only [writeAll, List.flatMap_nil, List.nil_append]; cases readAll rest <;> rfl
  | cons p pre ih =>
    simp only [writeAll, List.flatMap_cons, List.append_assoc]
    rw [readAll_cons _ _ (h p (by simp))]
    have := ih (fun q hq => h q (by simp [hq]))
    simp only [writeAll] at this
    rw [this]
    cases readAll rest <;> rfl

theorem write_length (p : RawPoint) (h : Storable p) : (write p).length =
    12 + (if p.indexes.length > 0 then 8 + (compIndex p.indexes).length + 4 * p.indexes.length else 0) := by
  unfold write
  simp only [List.length_append, leBytes_length]
  split
  · simp only [List.length_append, leBytes_length, values_length, h.1]; omega
  · simp

/-- Cutting inside the length field. -/
theorem next_cut_length (p : RawPoint) (c : Nat) (h4 : 4 ≤ c) (h12 : c < 12) :
    next ((write p).take c) = .ok ⟨.ok, ⟨p.label, [], []⟩, []⟩ := by
  unfold write
  rw [List.take_append, leBytes_length, List.take_of_length_le (by rw [leBytes_length]; omega)]
  unfold next
  rw [fileRead_append' _ _ (leBytes_length 4 _)]
  simp only [ne_eq, not_true_eq_false, if_false, label_bytes]
  rw [fileRead_short (by simp [leBytes_length]; omega)]
  simp

/-- Cutting behind the length field. -/
theorem next_cut_body (p : RawPoint) (hp : Storable p) (c : Nat) (h12 : 12 ≤ c) (hc : c < (write p).length) :
    ∃ r, next ((write p).take c) = .ok r ∧ r.status = .invalidFormat := by
  have hlen := write_length p hp
  obtain ⟨label, idx, vals⟩ := p
  obtain ⟨hl, hsz⟩ := hp
  simp only at hl hsz hlen
  have h0 : idx.length > 0 := by
    apply Decidable.byContradiction
    intro h0
    rw [if_neg h0] at hlen; omega
  rw [if_pos h0] at hlen
  rw [hlen] at hc
  have hcl := Sol.Props.C01_code_length idx
  unfold write
  simp only
  rw [if_pos h0, List.take_append, leBytes_length, List.take_of_length_le (by rw [leBytes_length]; omega),
    List.take_append, leBytes_length, List.take_of_length_le (by rw [leBytes_length]; omega)]
  unfold next
  rw [fileRead_append' _ _ (leBytes_length 4 _)]
  simp only [ne_eq, not_true_eq_false, if_false]
  rw [fileRead_append' _ _ (leBytes_length 8 _)]
  simp only [not_true_eq_false, if_false]
  rw [leVal_leBytes_of_lt (n := idx.length) (by omega), if_pos h0]
  by_cases h20 : c < 20
  · rw [fileRead_short (by simp [leBytes_length]; omega)]
    exact ⟨_, rfl, rfl⟩
  rw [List.take_append, leBytes_length, List.take_of_length_le (by rw [leBytes_length]; omega),
    fileRead_append' _ _ (leBytes_length 8 _)]
  simp only [not_true_eq_false, if_false]
  rw [leVal_leBytes_of_lt (n := (compIndex idx).length) (by omega)]
  by_cases hcode : c < 20 + (compIndex idx).length
  · rw [fileRead_short (by simp; omega)]
    exact ⟨_, rfl, rfl⟩
  rw [List.take_append, List.take_of_length_le (by omega), fileRead_append]
  simp only [not_true_eq_false, if_false]
  rw [Sol.Props.C01_index_codec_roundtrip, Res.bind_ok]
  simp only [not_true_eq_false, if_false]
  rw [Nat.mod_eq_of_lt (by omega : 4 * idx.length < 2 ^ 64),
    fileRead_short (by rw [List.length_take, values_length]; omega)]
  exact ⟨_, rfl, rfl⟩

end Sol.BinaryIO
