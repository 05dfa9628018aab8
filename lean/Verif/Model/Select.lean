import Verif.Model.Olm
import Verif.Model.Heap
/-!
# Model of the feature-selection algorithms: PET (ogd.cc), FOFS (fofs.cc), SOFS (arow.cc), AdaFOBOS_OFS (ada_fobos.cc),
AdaRDA_OFS (ada_rda.cc)

`B` is the budget, `static_cast<index_t>` of the parameter `B`.  The heaps point at the second element of a dense vector
(`data() + 1`), so heap id `i` is feature `i + 1`.
Simplification: `set_N` never throws here (the dimension never shrinks), so its exception is not modelled.
-/

namespace Sol.Select

open Sol.Online Sol.Sparse Sol.Loss Sol.Olm

variable {α : Type} [Zero α] [One α] [Add α] [Sub α] [Mul α] [Div α] [Neg α] [FCmp α] [IntCast α] [FFun α] [FSqrt α]

/-- The comparator of `MinHeap`. -/
def less (a b : α) : Bool := a <? b
/-- The comparator of `MaxHeap`. -/
def more (a b : α) : Bool := b <? a

/-- `idx - 1` in `index_t`. -/
def prev (i : Nat) : Nat := (i + 4294967295) % 4294967296

/-- `op::abs` (operator.h:143-148). -/
def absOp (a : α) : α := if 0 <? a then a else -a

/-- `w(c)[i] = 0` for all classes (ogd.cc:223-225). -/
def zeroAt (i : Nat) (ws : List (List α)) : Res (List (List α)) := eachAll (fun w => lset w i 0) ws

/-- `set_N(dim - 1, ...)` in `update_dim`. -/
def growHeap (n : Nat) (h : Heap.State) : Heap.State := (Heap.setN h (n - 1)).getD h

/-! ### PET and FOFS -/

/-- Own state: `abs_weights_` and `min_heap_`. -/
structure PetSt (α : Type) where
  absW : List α
  heap : Heap.State

/-- `update_dim` (ogd.cc:232-241, fofs.cc:96-105). -/
def petGrow (d n : Nat) (a : PetSt α) : PetSt α := ⟨growTo d n 0 a.absW, growHeap n a.heap⟩

/-- `abs_w += L1(w)` over all classes, dense (ogd.cc:196-198). -/
def absAll : List (List α) → List α → Res (List α)
  | [], v => .ok v
  | w :: l, v => do
    let v ← dense2 (fun a b => a + absOp b) v w
    absAll l v

/-- `BeginTrain` (ogd.cc:184-201, fofs.cc:34-53); `B + 1` is computed in `index_t`. -/
def petBegin (G : Alg α (PetSt α)) (B : Nat) (s : St α (PetSt α)) : Res (St α (PetSt α)) :=
  if 0 < B then do
    let s := { s with alg := { s.alg with absW := growTo (min s.dim s.alg.absW.length) s.dim 0 s.alg.absW } }
    let s := updateDim G s ((B + 1) % 4294967296)
    let v ← absAll s.w (List.replicate s.alg.absW.length 0)
    let h ← Heap.init less (v.drop 1) (s.dim - 1) B
    .ok { s with alg := ⟨v, h⟩ }
  else .ok s

/-- `abs_w += L1(w(c).slice(x))` over the classes from the second on (ogd.cc:212-214). -/
def absMore (x : SVec α) : List (List α) → List α → Res (List α)
  | [], v => .ok v
  | w :: l, v => do
    let v ← calcExp (· + ·) (fun _ i _ => do let a ← lget w i; .ok (absOp a)) v x
    absMore x l v

/-- The sums of absolute weights at the features of `x` (ogd.cc:211-214). -/
def absAt (x : SVec α) : List (List α) → List α → Res (List α)
  | [], _ => .ub .outOfBounds
  | w :: l, v => do
    let v ← calcExp (fun _ r => r) (fun _ i _ => do let a ← lget w i; .ok (absOp a)) v x
    absMore x l v

/-- The loop over all features (ogd.cc:219-228): weights, absolute weights, heap. -/
def petScan : List Nat → List (List α) → List α → Heap.State → Res (List (List α) × List α × Heap.State)
  | [], ws, v, h => .ok (ws, v, h)
  | i :: l, ws, v, h => do
    let r ← Heap.update less (v.drop 1) h i
    if r.2 = Heap.invalidIndex then petScan l ws v r.1
    else do
      let ws ← zeroAt (r.2 + 1) ws
      let v ← lset v (r.2 + 1) 0
      petScan l ws v r.1

/-- The selection after the update (ogd.cc:206-229, fofs.cc:73-94). -/
def petSelect (B : Nat) (s : St α (PetSt α)) (x : SVec α) : Res (St α (PetSt α)) :=
  if 0 < B then do
    let v ← absAt x s.w s.alg.absW
    let h ← Heap.build less (v.drop 1) s.alg.heap
    let (ws, v, h) ← petScan (List.range (s.dim - 1)) s.w v h
    .ok { s with w := ws, alg := ⟨v, h⟩ }
  else .ok s

/-- `PET` (ogd.cc:172-241). -/
def pet (eta0 : α) (pow : Int → α) (B : Nat) : Alg α (PetSt α) where
  grow := petGrow
  beginIter s _ := .ok s
  prep _ s _ := .ok s
  handler _ _ _ := none
  update c s x _ := do
    let s ← etaStep c { s with eta := eta0 / pow s.t } x
    petSelect B s x
  endIter s _ := .ok s
  endTrain := finish

/-- One class of `FOFS::Update` (fofs.cc:61-70): shrink, step, project. -/
def fofsStep (normCoeff momentum k b : α) (x : SVec α) (w : List α) : Res (List α) := do
  let w ← step k b x (w.map (· * momentum))
  let coeff := normCoeff / FSqrt.sqrt (dnorm2 w)
  .ok (if coeff <? 1 then w.map (· * coeff) else w)

/-- `FOFS` (fofs.cc:15-105); `normCoeff` and `momentum` are computed in `BeginTrain`. -/
def fofs (normCoeff momentum : α) (B : Nat) : Alg α (PetSt α) where
  grow := petGrow
  beginIter s _ := .ok s
  prep _ s _ := .ok s
  handler _ _ _ := none
  update c s x _ := do
    let w ← each1 (fun g w => fofsStep normCoeff momentum (s.eta * g) (biasEta c s * g) x w) s.g s.w
    petSelect B { s with w := w } x
  endIter s _ := .ok s
  endTrain := finish

/-! ### Selection by a second vector per class -/

/-- Own state of SOFS and AdaFOBOS_OFS: `Sigmas_` or `H_`, `Sigma_sum_` or `H_sum_` (used with several classes), heap. -/
structure OfsSt (α : Type) where
  sig : List (List α)
  sum : List α
  heap : Heap.State

/-- The vector the heap looks at (arow.cc:118-122): the only `Sigmas_`, or the sum. -/
def watched (clf : Nat) (sig : List (List α)) (sum : List α) : List α :=
  if clf = 1 then sig.headD [] else sum

/-- `update_dim` (arow.cc:238-251, ada_fobos.cc:244-257); `a` is the initial value of one class. -/
def ofsGrow (clf : Nat) (a : α) (d n : Nat) (st : OfsSt α) : OfsSt α :=
  ⟨growSig a d n st.sig, if clf = 1 then st.sum else growTo d n (((clf : Int) : α) * a) st.sum, growHeap n st.heap⟩

/-- `sum += Sigma(i)` over all classes, dense (arow.cc:148-151). -/
def sumAll : List (List α) → List α → Res (List α)
  | [], v => .ok v
  | w :: l, v => do
    let v ← dense2 (· + ·) v w
    sumAll l v

/-- `BeginTrain` (arow.cc:137-155, ada_fobos.cc:152-170). -/
def ofsBegin (cmp : α → α → Bool) (G : Alg α (OfsSt α)) (c : Cfg α) (B : Nat) (s : St α (OfsSt α)) :
    Res (St α (OfsSt α)) :=
  if 0 < B then do
    let s := { s with alg := { s.alg with
      sum := if c.clf = 1 then s.alg.sum else growTo (min s.dim s.alg.sum.length) s.dim 0 s.alg.sum } }
    let s := updateDim G s (B + 1)
    let sum ← (if c.clf = 1 then .ok s.alg.sum
      else sumAll s.alg.sig (List.replicate s.alg.sum.length 0) : Res (List α))
    let h ← Heap.init cmp ((watched c.clf s.alg.sig sum).drop 1) (s.dim - 1) B
    .ok { s with alg := ⟨s.alg.sig, sum, h⟩ }
  else .ok s

/-- `pos = get_pos(idx - 1); if (pos < B) AdjustHeap(pos, B - 1)` (arow.cc:196-199). -/
def resettle (cmp : α → α → Bool) (vals : List α) (B : Nat) (h : Heap.State) (i : Nat) : Res Heap.State := do
  let pos ← lget h.id2pos (prev i)
  if pos < B then Heap.adjust cmp vals h pos (Heap.last B) else .ok h

/-- The loop of the single-class case (arow.cc:191-200, ada_fobos.cc:187-198): the vector and the heap; `f` computes the
    new element from the old one and the value of the feature. -/
def settleOne (cmp : α → α → Bool) (f : α → α → α) (B : Nat) : SVec α → List α → Heap.State → Res (List α × Heap.State)
  | [], sig, h => .ok (sig, h)
  | (i, y) :: x, sig, h => do
    let a ← lget sig i
    let sig ← lset sig i (f a y)
    let h ← resettle cmp (sig.drop 1) B h i
    settleOne cmp f B x sig h

/-- `sum[i] = 0; for c: sum[i] += Sigmas_[c][i]` (arow.cc:214-217) from the running value `v`. -/
def sumAt (i : Nat) : List (List α) → α → Res α
  | [], v => .ok v
  | w :: l, v => do
    let a ← lget w i
    sumAt i l (v + a)

/-- The loop of the multi-class case (arow.cc:212-223, ada_fobos.cc:209-220): the sums and the heap. -/
def settleSum (cmp : α → α → Bool) (sig : List (List α)) (B : Nat) :
    SVec α → List α → Heap.State → Res (List α × Heap.State)
  | [], sum, h => .ok (sum, h)
  | (i, _) :: x, sum, h => do
    let v ← sumAt i sig 0
    let sum ← lset sum i v
    let h ← resettle cmp (sum.drop 1) B h i
    settleSum cmp sig B x sum h

/-- The loop that offers ids to the heap and deletes the weights of what it returns (arow.cc:226-235, ada_fobos.cc:232-241, ada_rda.cc:261-270). -/
def prune (cmp : α → α → Bool) (vals : List α) : List Nat → List (List α) → Heap.State → Res (List (List α) × Heap.State)
  | [], ws, h => .ok (ws, h)
  | i :: l, ws, h => do
    let r ← Heap.update cmp vals h i
    if r.2 = Heap.invalidIndex then prune cmp vals l ws r.1
    else do
      let ws ← zeroAt (r.2 + 1) ws
      prune cmp vals l ws r.1

/-- The ids of the features of `x` in the heap. -/
def ids (x : SVec α) : List Nat := x.map fun p => prev p.1

/-- The new variances and heap of SOFS (arow.cc:184-224); `none`: `return` (arow.cc:187). -/
def sofsSig (r : α) (B : Nat) (c : Cfg α) (g : List α) (a : OfsSt α) (x : SVec α) : Res (Option (OfsSt α)) :=
  if c.clf = 1 then do
    let g0 ← lget g 0
    if g0 =? 0 then .ok none
    else do
      let r1 := g0 * g0 / r
      let sig ← lget a.sig 0
      let sig ← atBias (fun s => s / (1 + s * r1)) sig
      let (sig, h) ← settleOne more (fun s y => s / (1 + s * y * y * r1)) B x sig a.heap
      .ok (some ⟨[sig], a.sum, h⟩)
  else do
    let sigs ← each1 (fun g sig => arowSig (g * g / r) x sig) g a.sig
    let (sum, h) ← settleSum more sigs B x a.sum a.heap
    .ok (some ⟨sigs, sum, h⟩)

/-- `SOFS::Update` with a budget (arow.cc:157-236); without one see `arow`. -/
def sofsUpdate (r : α) (B : Nat) (c : Cfg α) (s : St α (OfsSt α)) (x : SVec α) (l : α) : Res (St α (OfsSt α)) := do
  let beta ← confLoop (!(c.biasEta0 =? 0)) x s.g s.alg.sig 0
  let s := { s with eta := l * (1 / (beta + r)) }
  let ws ← each1 (fun g (p : List α × List α) => do
    let w ← sigStep (s.eta * g) (biasEta c s * g) x p.1 p.2
    .ok (w, p.2)) s.g (s.w.zip s.alg.sig)
  let s := { s with w := ws.map (·.1) }
  let a ← sofsSig r B c s.g s.alg x
  match a with
  | none => .ok s
  | some a => do
    let (w, h) ← prune more ((watched c.clf a.sig a.sum).drop 1) (ids x) s.w a.heap
    .ok { s with w := w, alg := { a with heap := h } }

/-- `SOFS` (arow.cc:115-251) with a budget `B > 0`. -/
def sofs (r : α) (B clf : Nat) : Alg α (OfsSt α) where
  grow := ofsGrow clf 1
  beginIter s _ := .ok s
  prep _ s _ := .ok s
  handler _ _ _ := none
  update := sofsUpdate r B
  endIter s _ := .ok s
  endTrain := finish

/-- The new element of `H_` (ada_fobos.cc:190-192), written as in the source. -/
def ofsH (delta g : α) (h y : α) : α := FSqrt.sqrt ((h - delta) * (h - delta) + g * g * y * y) + delta

/-- The new scales and heap of AdaFOBOS_OFS and AdaRDA_OFS (ada_fobos.cc:179-221, ada_rda.cc:205-247). -/
def ofsScale (delta : α) (B : Nat) (c : Cfg α) (g : List α) (a : OfsSt α) (x : SVec α) : Res (Option (OfsSt α)) :=
  if c.clf = 1 then do
    let g0 ← lget g 0
    if g0 =? 0 then .ok none
    else do
      let H ← lget a.sig 0
      let H ← atBias (fun h => FSqrt.sqrt ((h - delta) * (h - delta) + g0 * g0) + delta) H
      let (H, h) ← settleOne less (ofsH delta g0) B x H a.heap
      .ok (some ⟨[H], a.sum, h⟩)
  else do
    let Hs ← each1 (fun g H => adaH delta g x H) g a.sig
    let (sum, h) ← settleSum less Hs B x a.sum a.heap
    .ok (some ⟨Hs, sum, h⟩)

/-- `AdaFOBOS_OFS::Update` with a budget (ada_fobos.cc:172-242). -/
def adaFobosOfsUpdate (delta : α) (B : Nat) (c : Cfg α) (s : St α (OfsSt α)) (x : SVec α) (_ : α) :
    Res (St α (OfsSt α)) := do
  let a ← ofsScale delta B c s.g s.alg x
  match a with
  | none => .ok s
  | some a => do
    let ws ← each1 (fun g (p : List α × List α) => do
      let w ← adaStep (s.eta * g) (biasEta c s * g) x p.1 p.2
      .ok (w, p.2)) s.g (s.w.zip a.sig)
    let (w, h) ← prune less ((watched c.clf a.sig a.sum).drop 1) (ids x) (ws.map (·.1)) a.heap
    .ok { s with w := w, alg := { a with heap := h } }

/-- `AdaFOBOS_OFS` (ada_fobos.cc:130-257) with a budget `B > 0`. -/
def adaFobosOfs (delta : α) (B clf : Nat) : Alg α (OfsSt α) where
  grow := ofsGrow clf delta
  beginIter s _ := .ok s
  prep _ s _ := .ok s
  handler _ _ _ := none
  update := adaFobosOfsUpdate delta B
  endIter s _ := .ok s
  endTrain := finish

/-- Own state of AdaRDA_OFS: `ut_` in addition. -/
structure RdaOfsSt (α : Type) where
  ofs : OfsSt α
  ut : List (List α)

/-- One class of the weight update of AdaRDA_OFS (ada_rda.cc:250-257): weights, `H_`, `ut_`. -/
def rdaOfsOne (eta bias0 g : α) (x : SVec α) (p : List α × List α × List α) : Res (List α × List α × List α) := do
  let u ← addGrad g x p.2.2
  let w ← calcExp (fun _ r => r) (fun _ i _ => do
    let a ← lget u i
    let h ← lget p.2.1 i
    .ok (-eta * a / h)) p.1 x
  let w ← atBias (· * bias0) w
  .ok (w, p.2.1, u)

/-- `AdaRDA_OFS::Update` with a budget (ada_rda.cc:198-271). -/
def adaRdaOfsUpdate (delta : α) (B : Nat) (c : Cfg α) (s : St α (RdaOfsSt α)) (x : SVec α) (_ : α) :
    Res (St α (RdaOfsSt α)) := do
  let a ← ofsScale delta B c s.g s.alg.ofs x
  match a with
  | none => .ok s
  | some a => do
    let ws ← each1 (fun g p => rdaOfsOne s.eta c.biasEta0 g x p) s.g (s.w.zip (a.sig.zip s.alg.ut))
    let (w, h) ← prune less ((watched c.clf a.sig a.sum).drop 1) (ids x) (ws.map (·.1)) a.heap
    .ok { s with w := w, alg := ⟨{ a with heap := h }, ws.map (·.2.2)⟩ }

/-- `AdaRDA_OFS::EndTrain` (ada_rda.cc:273-295). -/
def adaRdaOfsEnd (B : Nat) (c : Cfg α) (s : St α (RdaOfsSt α)) : Res (St α (RdaOfsSt α)) := do
  let w ← eachWith2 (adaRdaEnd (fun a => a) s.eta c.biasEta0) s.w s.alg.ut s.alg.ofs.sig
  let a := s.alg.ofs
  let (w, h) ← (if 0 < B then prune less ((watched c.clf a.sig a.sum).drop 1) (List.range (s.dim - 1)) w a.heap
    else .ok (w, a.heap) : Res (List (List α) × Heap.State))
  .ok { s with w := w, alg := { s.alg with ofs := { a with heap := h } }, fresh := false }

/-- `AdaRDA_OFS` (ada_rda.cc:156-310) with a budget `B > 0`. -/
def adaRdaOfs (delta : α) (B clf : Nat) : Alg α (RdaOfsSt α) where
  grow d n a := ⟨ofsGrow clf delta d n a.ofs, growSig 0 d n a.ut⟩
  beginIter s _ := .ok s
  prep _ s _ := .ok s
  handler _ _ _ := none
  update := adaRdaOfsUpdate delta B
  endIter s _ := .ok s
  endTrain := adaRdaOfsEnd B

/-- `AdaRDA_OFS::BeginTrain` (ada_rda.cc:178-196). -/
def adaRdaOfsBegin (G : Alg α (RdaOfsSt α)) (c : Cfg α) (B : Nat) (s : St α (RdaOfsSt α)) : Res (St α (RdaOfsSt α)) :=
  if 0 < B then do
    let o := s.alg.ofs
    let s := { s with alg := { s.alg with ofs := { o with
      sum := if c.clf = 1 then o.sum else growTo (min s.dim o.sum.length) s.dim 0 o.sum } } }
    let s := updateDim G s (B + 1)
    let o := s.alg.ofs
    let sum ← (if c.clf = 1 then .ok o.sum else sumAll o.sig (List.replicate o.sum.length 0) : Res (List α))
    let h ← Heap.init less ((watched c.clf o.sig sum).drop 1) (s.dim - 1) B
    .ok { s with alg := { s.alg with ofs := ⟨o.sig, sum, h⟩ } }
  else .ok s

end Sol.Select
