import Verif.Model.Wrappers

/-!
# The ready-made classes, by the parts of their names
-/

namespace FF

/-- The words in the name of a class. -/
structure NameParts where
  gradientBoosted : Bool
  extremely : Bool
  histogram : Bool
  patches : Bool
  classifier : Bool
  deriving DecidableEq, Repr

/-- `ExtremelyRandomForestClassifier` … `GradientBoostedRandomPatchesRegressor`. -/
def nameParts : Wrapper → NameParts
  --                    boosted  extrem.  hist.   patches  classifier
  | .extraC         => ⟨false,   true,    false,  false,   true⟩
  | .extraR         => ⟨false,   true,    false,  false,   false⟩
  | .gbExtraC       => ⟨true,    true,    false,  false,   true⟩
  | .gbExtraR       => ⟨true,    true,    false,  false,   false⟩
  | .histC          => ⟨false,   false,   true,   false,   true⟩
  | .histR          => ⟨false,   false,   true,   false,   false⟩
  | .gbHistC        => ⟨true,    false,   true,   false,   true⟩
  | .gbHistR        => ⟨true,    false,   true,   false,   false⟩
  | .histPatchesC   => ⟨false,   false,   true,   true,    true⟩
  | .histPatchesR   => ⟨false,   false,   true,   true,    false⟩
  | .gbHistPatchesC => ⟨true,    false,   true,   true,    true⟩
  | .gbHistPatchesR => ⟨true,    false,   true,   true,    false⟩
  | .forestC        => ⟨false,   false,   false,  false,   true⟩
  | .forestR        => ⟨false,   false,   false,  false,   false⟩
  | .gbForestC      => ⟨true,    false,   false,  false,   true⟩
  | .gbForestR      => ⟨true,    false,   false,  false,   false⟩
  | .patchesC       => ⟨false,   false,   false,  true,    true⟩
  | .patchesR       => ⟨false,   false,   false,  true,    false⟩
  | .gbPatchesC     => ⟨true,    false,   false,  true,    true⟩
  | .gbPatchesR     => ⟨true,    false,   false,  true,    false⟩

/-- Each tree gets its own bootstrap sample of the rows: all forests that are neither extremely random nor boosted, the
`HistogramRandomPatches` classes, the boosted extremely random forest, and the boosted random forest if asked to. The other classes give
every tree all the rows. -/
def Bagged (p : NameParts) (asked : Bool) : Prop :=
  if p.gradientBoosted then p.patches = false ∧ (p.extremely = true ∨ (p.histogram = false ∧ asked = true))
  else p.extremely = false ∧ (p.patches = false ∨ p.histogram = true)

/-- Each tree gets its own subset of rows and columns: the `HistogramRandomPatches` classes without boosting. (The other patches choose
once, in the constructor.) -/
def SubsetPerTree (p : NameParts) : Prop := p.gradientBoosted = false ∧ p.histogram = true ∧ p.patches = true

/-- Each node looks at about √F of the F columns: the classifiers that are given all columns, and the boosted random forest regressor.
The nodes of the other classes look at all the columns. -/
def FewFeatures (p : NameParts) : Prop :=
  (p.classifier = true ∧ (p.patches = false ∨ p.histogram = true)) ∨
  (p.gradientBoosted = true ∧ p.extremely = false ∧ p.histogram = false ∧ p.patches = false)

/-- The bins of a histogram forest reach over all the training rows, not only over those of the node: the two `HistogramRandomForest`s. -/
def GlobalBins (p : NameParts) : Prop := p.gradientBoosted = false ∧ p.histogram = true ∧ p.patches = false

end FF
