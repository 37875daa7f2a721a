import Verif.Model.Io
import Verif.Spec.Container
/-! # Readers over a file

What it means that an `io.ReadSeeker` shows a certain file, possibly with failures. -/
namespace Apk

/-- Whatever the reader delivers is what the file has at that place. Any call may fail. -/
structure Disk.Over (d : Disk) (file : Bytes) : Prop where
  size : ∀ n, d.size = some n → n = file.length
  read : ∀ t off n b, d.read t off n = some b → off + n ≤ file.length ∧ b = (file.drop off).take n

/-- Some call fails although it asks for something inside the file. -/
def Disk.Fails (d : Disk) (file : Bytes) : Prop :=
  d.size = none ∨ ∃ t off n, off + n ≤ file.length ∧ d.read t off n = none

/-- A ZIP64 locator stands before the end-of-central-directory record with the shortest comment. -/
def Zip64 (file : Bytes) : Prop := ∃ pre rec c, ShortestEocd file pre rec c ∧ Zip64Before pre

end Apk
