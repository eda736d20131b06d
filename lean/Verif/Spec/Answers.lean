import Verif.Model.Answers

/-!
# What a caller can do with a fitted tree or forest and with its answers (C122)
-/

namespace FF

variable {K : Type} [Field K] [LinearOrder K] [FloorRing K] [NpFun K] {G : Type}

/-- The fitted tree `t0` has been asked, one point or one batch at a time, and the caller has written into arrays it got as answers: any
contents into the arrays of `predict_batch`, and, if `scribble` says so, into the arrays of `predict`. `h` are the contents of all arrays now,
`lent` the arrays the caller got from `predict`, `own` those from `predict_batch`. -/
inductive TreeUse (scribble : Bool) (t0 : Tree K G) : SharedTree K G → List (List K) → List Nat → List Nat → Prop
  | start (h : List (List K)) : TreeUse scribble t0 t0.share h [] []
  | predict {t t' : SharedTree K G} {h h' : List (List K)} {lent own : List Nat} {x : List K} {a : Answer K}
      (hu : TreeUse scribble t0 t h lent own) (hp : t.predict h x = .ok (a, t', h')) : TreeUse scribble t0 t' h' (a.arrays ++ lent) own
  | batch {t t' : SharedTree K G} {h h' : List (List K)} {lent own : List Nat} {xs : List (List K)} {as : List (Answer K)}
      (hu : TreeUse scribble t0 t h lent own) (hp : t.predictBatch h xs = .ok (as, t', h')) :
      TreeUse scribble t0 t' h' lent (as.flatMap Answer.arrays ++ own)
  | write {t : SharedTree K G} {h : List (List K)} {lent own : List Nat} {a : Nat}
      (hu : TreeUse scribble t0 t h lent own) (ha : a ∈ own) (p : List K) : TreeUse scribble t0 t (h.set a p) lent own
  | overwrite {t : SharedTree K G} {h : List (List K)} {lent own : List Nat} {a : Nat}
      (hu : TreeUse scribble t0 t h lent own) (hs : scribble = true) (ha : a ∈ lent) (p : List K) :
      TreeUse scribble t0 t (h.set a p) lent own

/-- The same for a forest `f0`: the caller may write into all its answers, `own`. -/
inductive ForestUse (f0 : Forest K G) : SharedForest K G → List (List K) → List Nat → Prop
  | start (h : List (List K)) : ForestUse f0 f0.share h []
  | predict {f f' : SharedForest K G} {h h' : List (List K)} {own : List Nat} {x : List K} {a : Answer K}
      (hu : ForestUse f0 f h own) (hp : f.predict h x = .ok (a, f', h')) : ForestUse f0 f' h' (a.arrays ++ own)
  | batch {f f' : SharedForest K G} {h h' : List (List K)} {own : List Nat} {xs : List (List K)} {as : List (Answer K)}
      (hu : ForestUse f0 f h own) (hp : f.predictBatch h xs = .ok (as, f', h')) : ForestUse f0 f' h' (as.flatMap Answer.arrays ++ own)
  | write {f : SharedForest K G} {h : List (List K)} {own : List Nat} {a : Nat}
      (hu : ForestUse f0 f h own) (ha : a ∈ own) (p : List K) : ForestUse f0 f (h.set a p) own

/-- The part of an answer that is a number: the class label or the regression value. -/
def Answer.number : Answer K → K
  | .cls l _ => l
  | .reg v => v

/-- The same for an answer given as values. -/
def Pred.number : Pred K → K
  | .cls l _ => l
  | .reg v => v

end FF
