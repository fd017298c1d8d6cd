import Verif.Model.Directory
/-
The attributes of a directory entry that a read of a written file must give back.
-/
namespace Iges.Spec

/-- Directory attributes `r` as read for an entity of type `t` that was written with attributes `s`: they
agree except where the standard gives the type no such attribute, which is then 0, or a fixed one. -/
structure DeKept (t : Int) (s r : DE) : Prop where
  seq : r.seq = s.seq
  type : r.entityType = s.entityType
  pdata : r.parameterData = s.parameterData
  count : r.paramLineCount = s.paramLineCount
  form : r.form = s.form
  label : r.label = s.label
  subscript : r.entitySubscript = s.entitySubscript
  level : t ∉ [124, 314] → r.level = s.level
  font : t ∉ [124, 314, 406, 502, 504, 510, 514] → r.lineFontPattern = s.lineFontPattern
  view : t ∉ [124, 314, 406, 502, 504, 508, 510, 514] → r.view = s.view
  transform : t ∉ [314, 406, 502, 504, 508, 510, 514] → r.transform = s.transform
  labelAssoc : t ∉ [124, 314, 406] → r.labelAssoc = s.labelAssoc
  visible : t ∉ [124, 406] → r.visible = s.visible
  depends : t ∉ [314, 502, 504, 508, 510] → r.depends = s.depends
  use : t ∉ [142, 144, 154, 164, 180, 308, 314, 406] → r.use = s.use
  hierarchy : t ∉ [100, 104, 110, 120, 122, 124, 126, 128, 142, 144, 154, 164, 406, 502, 504] →
    r.hierarchy = s.hierarchy
  weight : t ∉ [314, 502, 504, 510, 514] → r.lineWeightNum = s.lineWeightNum
  color : t ∉ [502, 504, 510, 514] → r.colorNum = s.colorNum
  noStructure : r.structure_ = 0
  noLevel : t ∈ [124, 314] → r.level = 0
  noFont : t ∈ [124, 314, 406, 502, 504, 510, 514] → r.lineFontPattern = 0
  noView : t ∈ [124, 314, 406, 502, 504, 508, 510, 514] → r.view = 0
  noTransform : t ∈ [314, 406, 502, 504, 508, 510, 514] → r.transform = 0
  noLabel : t ∈ [124, 314, 406] → r.labelAssoc = 0
  shown : t ∈ [124, 406] → r.visible = true
  alone : t = 314 → r.depends = 0
  dependent : t ∈ [502, 504, 508, 510] → r.depends = 1
  geometry : t ∈ [142, 144, 154, 164, 180, 406] → r.use = 0
  definition : t ∈ [308, 314] → r.use = 2
  noHierarchy : t ∈ [100, 104, 110, 120, 122, 124, 126, 128, 142, 144, 154, 164, 406, 502] → r.hierarchy = 0
  deferred : t = 504 → r.hierarchy = 1
  noWeight : t ∈ [314, 502, 504, 510, 514] → r.lineWeightNum = 0
  noColor : t ∈ [502, 504, 510, 514] → r.colorNum = 0

end Iges.Spec
