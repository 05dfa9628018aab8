import Verif.Model.NumericParser
/-!
# Lemmas about the numeric parser: every function moves forward inside the zero-terminated line
-/

namespace Sol.NumericParser

/-- `r`, started at `p`, only moves forward over characters different from the terminator, and does not leave a
    buffer that contains a terminator. -/
def Adv {α : Type} (p : Ptr) (r : Res α) (out : α → Ptr) : Prop :=
  (∀ a, r = .ok a → ∃ used, p = used ++ out a ∧ '\x00' ∉ used) ∧ ('\x00' ∈ p → r ≠ .ub .outOfBounds)

theorem Adv.bind {α β : Type} {p : Ptr} {r : Res α} {out : α → Ptr} {f : α → Res β} {out' : β → Ptr}
    (h : Adv p r out) (hf : ∀ a, r = .ok a → Adv (out a) (f a) out') : Adv p (r >>= f) out' := by
  constructor
  · intro b hb
    obtain ⟨a, ha, hfa⟩ := Res.bind_eq_ok.1 hb
    obtain ⟨u, hu, hu'⟩ := h.1 a ha
    obtain ⟨v, hv, hv'⟩ := (hf a ha).1 b hfa
    exact ⟨u ++ v, by rw [hu, hv]; simp, by simp [hu', hv']⟩
  · intro hp hc
    cases hr : r with
    | ub k => rw [hr] at hc; simp at hc; subst hc; exact h.2 hp hr
    | ok a =>
      obtain ⟨u, hu, hu'⟩ := h.1 a hr
      rw [hr] at hc
      simp only [Res.bind_ok] at hc
      refine (hf a hr).2 ?_ hc
      rw [hu] at hp
      simpa [hu'] using hp

theorem Adv.pure {α : Type} (p : Ptr) (a : α) (out : α → Ptr) (h : out a = p) : Adv p (.ok a) out :=
  ⟨fun b hb => ⟨[], by cases hb; simp [h], by simp⟩, fun _ h => by cases h⟩

/-- A computation that does not touch the buffer. -/
theorem Adv.const {α : Type} (p : Ptr) (r : Res α) (h : r ≠ .ub .outOfBounds) : Adv p r (fun _ => p) :=
  ⟨fun _ _ => ⟨[], by simp, by simp⟩, fun _ => h⟩

theorem Adv.bindConst {α β : Type} {p : Ptr} {r : Res α} {f : α → Res β} {out' : β → Ptr}
    (h : r ≠ .ub .outOfBounds) (hf : ∀ a, r = .ok a → Adv p (f a) out') : Adv p (r >>= f) out' :=
  Adv.bind (out := fun _ => p) (Adv.const p r h) hf

theorem chkInt_no_oob (x : Int) : chkInt x ≠ .ub .outOfBounds := by
  unfold chkInt; split <;> simp

theorem accInt_no_oob (acc : Int) (c : Char) : accInt acc c ≠ .ub .outOfBounds := by
  unfold accInt chkInt
  split
  · simp only [Res.bind_ok]
    split
    · simp only [Res.bind_ok]; split <;> simp
    · simp
  · simp

theorem Adv.tail {α : Type} {c : Char} {p : Ptr} {r : Res α} {out : α → Ptr} (hc : c ≠ '\x00')
    (h : Adv p r out) : Adv (c :: p) r out := by
  constructor
  · intro a ha
    obtain ⟨u, hu, hu'⟩ := h.1 a ha
    exact ⟨c :: u, by rw [hu]; rfl, by simp [hu', Ne.symm hc]⟩
  · intro hp
    apply h.2
    simpa [Ne.symm hc] using hp

theorem Adv.nil {α : Type} {r : Res α} {out : α → Ptr} (h : ∀ a, r ≠ .ok a) : Adv [] r out :=
  ⟨fun a ha => absurd ha (h a), fun h => by simp at h⟩

theorem isDigit_ne_zero {c : Char} (h : isDigit c = true) : c ≠ '\x00' := by
  rintro rfl; simp [isDigit] at h; 

theorem isSpace_ne_zero {c : Char} (h : isSpace c = true) : c ≠ '\x00' := by
  rintro rfl; revert h; decide

theorem stripLine_adv (p : Ptr) : Adv p (stripLine p) id := by
  induction p with
  | nil => exact Adv.nil (by simp [stripLine])
  | cons c p ih =>
    rw [stripLine]
    split
    · exact Adv.tail (isSpace_ne_zero ‹_›) ih
    · exact Adv.pure _ _ _ rfl

theorem intDigits_adv (p : Ptr) (acc : Int) : Adv p (intDigits acc p) (·.2) := by
  induction p generalizing acc with
  | nil => exact Adv.nil (by simp [intDigits])
  | cons c p ih =>
    rw [intDigits]
    split
    · exact Adv.bindConst (accInt_no_oob _ _) fun a _ => Adv.tail (isDigit_ne_zero ‹_›) (ih a)
    · exact Adv.pure _ _ _ rfl

theorem intDecimals_adv (p : Ptr) (acc : Int) (n : Nat) (m : Option Nat) :
    Adv p (intDecimals acc n m p) (·.2.2) := by
  induction p generalizing acc n with
  | nil => exact Adv.nil (by simp [intDecimals])
  | cons c p ih =>
    rw [intDecimals]
    split
    · rename_i h
      rw [Bool.and_eq_true] at h
      exact Adv.bindConst (accInt_no_oob _ _) fun a _ => Adv.tail (isDigit_ne_zero h.1) (ih a _)
    · exact Adv.pure _ _ _ rfl

theorem skipDigits_adv (p : Ptr) : Adv p (skipDigits p) id := by
  induction p with
  | nil => exact Adv.nil (by simp [skipDigits])
  | cons c p ih =>
    rw [skipDigits]
    split
    · exact Adv.tail (isDigit_ne_zero ‹_›) ih
    · exact Adv.pure _ _ _ rfl

theorem uintDigits_adv (p : Ptr) (acc : UInt32) : Adv p (uintDigits acc p) (·.2) := by
  induction p generalizing acc with
  | nil => exact Adv.nil (by simp [uintDigits])
  | cons c p ih =>
    rw [uintDigits]
    split
    · exact Adv.tail (isDigit_ne_zero ‹_›) (ih _)
    · exact Adv.pure _ _ _ rfl

theorem uintDecimals_adv (p : Ptr) (acc : UInt32) (n : Nat) : Adv p (uintDecimals acc n p) (·.2.2) := by
  induction p generalizing acc n with
  | nil => exact Adv.nil (by simp [uintDecimals])
  | cons c p ih =>
    rw [uintDecimals]
    split
    · exact Adv.tail (isDigit_ne_zero ‹_›) (ih _ _)
    · exact Adv.pure _ _ _ rfl

/-- Looking at the current character does not move. -/
theorem Adv.peek {α : Type} {p : Ptr} {f : Char → Res α} {out : α → Ptr}
    (h : ∀ c q, p = c :: q → Adv p (f c) out) : Adv p (peek p >>= f) out := by
  cases p with
  | nil => exact Adv.nil (by simp [NumericParser.peek])
  | cons c q => exact h c q rfl

theorem skipChar_adv (c : Char) (hc : c ≠ '\x00') (p : Ptr) : Adv p (skipChar c p) id := by
  unfold skipChar
  refine Adv.peek fun x q hp => ?_
  subst hp
  split
  · subst x; exact Adv.tail hc (Adv.pure _ _ _ rfl)
  · exact Adv.pure _ _ _ rfl

theorem intExponent_adv (p : Ptr) : Adv p (intExponent p) (·.2) := by
  unfold intExponent
  refine Adv.peek fun x q hp => ?_
  subst hp
  split
  · rename_i h
    refine Adv.tail (by rintro rfl; simp at h) ?_
    exact (skipChar_adv '+' (by decide) _).bind fun a _ => intDigits_adv _ _
  · exact Adv.pure _ _ _ rfl

theorem intFraction_adv (p : Ptr) (acc : Int) : Adv p (intFraction acc p) (·.2.2) := by
  unfold intFraction
  refine Adv.peek fun x q hp => ?_
  subst hp
  split
  · rename_i h
    exact Adv.tail (by rw [h]; decide) (intDecimals_adv _ _ _ _)
  · exact Adv.pure _ _ _ rfl

theorem uintFraction_adv (p : Ptr) (acc : UInt32) : Adv p (uintFraction acc p) (·.2.2) := by
  unfold uintFraction
  refine Adv.peek fun x q hp => ?_
  subst hp
  split
  · rename_i h
    exact Adv.tail (by rw [h]; decide) (uintDecimals_adv _ _ _)
  · exact Adv.pure _ _ _ rfl

theorem intSign_adv (p : Ptr) : Adv p (intSign p) (·.2) := by
  unfold intSign
  refine Adv.peek fun x q hp => ?_
  subst hp
  split
  · rename_i h; exact Adv.tail (by rw [h]; decide) (Adv.pure _ _ _ rfl)
  · split
    · rename_i h; exact Adv.tail (by rw [h]; decide) (Adv.pure _ _ _ rfl)
    · exact Adv.pure _ _ _ rfl

theorem floatSign_adv (p : Ptr) : Adv p (floatSign p) (·.2) := by
  unfold floatSign
  refine (skipChar_adv '+' (by decide) p).bind fun a _ => ?_
  refine Adv.peek fun x q hp => ?_
  change a = x :: q at hp
  subst hp
  split
  · rename_i h; exact Adv.tail (by rw [h]; decide) (Adv.pure _ _ _ rfl)
  · exact Adv.pure _ _ _ rfl

theorem floatFraction_adv (p : Ptr) (acc : Int) : Adv p (floatFraction acc p) (·.2.2) := by
  unfold floatFraction
  refine Adv.peek fun x q hp => ?_
  subst hp
  split
  · rename_i h
    refine Adv.tail (by rw [h]; decide) ?_
    refine (intDecimals_adv _ _ _ _).bind fun a _ => ?_
    exact (skipDigits_adv _).bind fun b _ => Adv.pure _ _ _ rfl
  · exact Adv.pure _ _ _ rfl

theorem floatExponent_adv (p : Ptr) : Adv p (floatExponent p) (·.2) := by
  unfold floatExponent
  refine Adv.peek fun x q hp => ?_
  subst hp
  split
  · rename_i h
    refine Adv.tail (by rintro rfl; simp at h) ?_
    refine (floatSign_adv _).bind fun a _ => ?_
    refine (intDigits_adv _ _).bind fun b _ => ?_
    exact Adv.bindConst (chkInt_no_oob _) fun c _ => Adv.pure _ _ _ rfl
  · exact Adv.pure _ _ _ rfl

theorem scaleInt_no_oob (a e : Int) (n : Nat) : scaleInt a e n ≠ .ub .outOfBounds := by
  unfold scaleInt
  split
  · dsimp only
    split
    · simp
    · exact chkInt_no_oob _
  · simp

theorem scaleUint_no_oob (a : UInt32) (e : Int) (n : Nat) : scaleUint a e n ≠ .ub .outOfBounds := by
  unfold scaleUint
  split
  · dsimp only
    split <;> simp
  · simp

/-- A parse that gives up returns its start position. -/
theorem Adv.giveUp {α : Type} {p0 p : Ptr} {used : List Char} (hp : p0 = used ++ p) (hu : '\x00' ∉ used)
    {r : Res α} {out : α → Ptr}
    (h : ∀ a, r = .ok a → out a = p0 ∨ ∃ u, p = u ++ out a ∧ '\x00' ∉ u)
    (h2 : '\x00' ∈ p → r ≠ .ub .outOfBounds) : Adv p0 r out := by
  constructor
  · intro a ha
    rcases h a ha with h | ⟨u, h, h'⟩
    · exact ⟨[], by simp [h], by simp⟩
    · exact ⟨used ++ u, by rw [hp, h]; simp, by simp [hu, h']⟩
  · intro hm
    apply h2
    rw [hp] at hm
    simpa [hu] using hm

/-- As `Adv`, but the run may also end with the initial position `p0`. -/
def AdvOr {α : Type} (p0 p : Ptr) (r : Res α) (out : α → Ptr) : Prop :=
  (∀ a, r = .ok a → out a = p0 ∨ ∃ used, p = used ++ out a ∧ '\x00' ∉ used) ∧
    ('\x00' ∈ p → r ≠ .ub .outOfBounds)

theorem AdvOr.bind {α β : Type} {p0 p : Ptr} {r : Res α} {out : α → Ptr} {f : α → Res β} {out' : β → Ptr}
    (h : Adv p r out) (hf : ∀ a, r = .ok a → AdvOr p0 (out a) (f a) out') : AdvOr p0 p (r >>= f) out' := by
  constructor
  · intro b hb
    obtain ⟨a, ha, hfa⟩ := Res.bind_eq_ok.1 hb
    obtain ⟨u, hu, hu'⟩ := h.1 a ha
    rcases (hf a ha).1 b hfa with hv | ⟨v, hv, hv'⟩
    · exact .inl hv
    · exact .inr ⟨u ++ v, by rw [hu, hv]; simp, by simp [hu', hv']⟩
  · intro hp hc
    cases hr : r with
    | ub k => rw [hr] at hc; simp at hc; subst hc; exact h.2 hp hr
    | ok a =>
      obtain ⟨u, hu, hu'⟩ := h.1 a hr
      rw [hr] at hc
      simp only [Res.bind_ok] at hc
      refine (hf a hr).2 ?_ hc
      rw [hu] at hp
      simpa [hu'] using hp

theorem AdvOr.peek {α : Type} {p0 p : Ptr} {f : Char → Res α} {out : α → Ptr}
    (h : ∀ c, AdvOr p0 p (f c) out) : AdvOr p0 p (NumericParser.peek p >>= f) out := by
  cases p with
  | nil => exact ⟨fun a ha => by simp [NumericParser.peek] at ha, fun h => by simp at h⟩
  | cons c q => exact h c

theorem AdvOr.giveUp {α : Type} {p0 p : Ptr} {a : α} {out : α → Ptr} (h : out a = p0) :
    AdvOr p0 p (.ok a) out := ⟨fun b hb => by cases hb; exact .inl h, fun _ h => by cases h⟩

theorem Adv.toOr {α : Type} {p0 p : Ptr} {r : Res α} {out : α → Ptr} (h : Adv p r out) : AdvOr p0 p r out :=
  ⟨fun a ha => .inr (h.1 a ha), h.2⟩

theorem AdvOr.toAdv {α : Type} {p : Ptr} {r : Res α} {out : α → Ptr} (h : AdvOr p p r out) : Adv p r out := by
  refine ⟨fun a ha => ?_, h.2⟩
  rcases h.1 a ha with h | h
  · exact ⟨[], by simp [h], by simp⟩
  · exact h

theorem parseInt_adv (p : Ptr) : Adv p (parseInt p) (·.2) := by
  apply AdvOr.toAdv
  unfold parseInt
  refine AdvOr.bind (stripLine_adv p) fun q _ => AdvOr.peek fun c => ?_
  split
  · exact AdvOr.giveUp rfl
  · refine AdvOr.bind (intSign_adv _) fun a _ => ?_
    refine AdvOr.bind (intDigits_adv _ _) fun b _ => ?_
    refine AdvOr.bind (intFraction_adv _ _) fun d _ => ?_
    refine AdvOr.bind (intExponent_adv _) fun e _ => ?_
    dsimp only
    split
    · exact AdvOr.giveUp rfl
    · apply Adv.toOr
      refine Adv.bindConst (scaleInt_no_oob _ _ _) fun f _ => ?_
      refine (stripLine_adv _).bind fun g _ => ?_
      exact Adv.bindConst (chkInt_no_oob _) fun h _ => Adv.pure _ _ _ rfl

theorem parseUint_adv (p : Ptr) : Adv p (parseUint p) (·.2) := by
  apply AdvOr.toAdv
  unfold parseUint
  refine AdvOr.bind (stripLine_adv p) fun q _ => AdvOr.peek fun c => ?_
  split
  · exact AdvOr.giveUp rfl
  · refine AdvOr.bind (uintDigits_adv _ _) fun b _ => ?_
    refine AdvOr.bind (uintFraction_adv _ _) fun d _ => ?_
    refine AdvOr.bind (intExponent_adv _) fun e _ => ?_
    dsimp only
    split
    · exact AdvOr.giveUp rfl
    · apply Adv.toOr
      refine Adv.bindConst (scaleUint_no_oob _ _ _) fun f _ => ?_
      exact (stripLine_adv _).bind fun g _ => Adv.pure _ _ _ rfl

theorem parseFloat_adv (p : Ptr) : Adv p (parseFloat p) (·.2) := by
  apply AdvOr.toAdv
  unfold parseFloat
  refine AdvOr.bind (stripLine_adv p) fun q _ => AdvOr.peek fun c => ?_
  split
  · exact AdvOr.giveUp rfl
  · apply Adv.toOr
    refine Adv.bind (floatSign_adv _) fun a _ => ?_
    refine Adv.bind (intDigits_adv _ _) fun b _ => ?_
    refine Adv.bind (floatFraction_adv _ _) fun d _ => ?_
    refine Adv.bind (floatExponent_adv _) fun e _ => ?_
    refine Adv.bindConst (chkInt_no_oob _) fun f _ => ?_
    refine (stripLine_adv _).bind fun g _ => ?_
    exact Adv.bindConst (chkInt_no_oob _) fun h _ => Adv.pure _ _ _ rfl

theorem Adv.length {α : Type} {p : Ptr} {r : Res α} {out : α → Ptr} (h : Adv p r out) {a : α} (ha : r = .ok a) :
    (out a).length ≤ p.length := by
  obtain ⟨u, hu, _⟩ := h.1 a ha
  rw [hu, List.length_append]; omega

theorem parseUint_length {p : Ptr} {v : UInt32} {e : Ptr} (h : parseUint p = .ok (v, e)) : e.length ≤ p.length :=
  (parseUint_adv p).length h

theorem parseFloat_length {p : Ptr} {v : Dec} {e : Ptr} (h : parseFloat p = .ok (v, e)) : e.length ≤ p.length :=
  (parseFloat_adv p).length h

end Sol.NumericParser
