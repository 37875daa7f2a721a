import Verif.Model.Digest
/-! # Contents of data sources -/
namespace Apk

/-- The bytes a data source stands for. -/
def Leaf.contents : Leaf → Bytes
  | .apk file start stop => slice file start (stop - start)
  | .bytes d => d

/-- A source that lies inside the file. -/
def Leaf.Valid : Leaf → Prop
  | .apk file start stop => start ≤ stop ∧ stop ≤ file.length
  | .bytes _ => True

/-- The concatenation of the sources. -/
def concatContents (ls : List Leaf) : Bytes := (ls.map Leaf.contents).flatten

end Apk
