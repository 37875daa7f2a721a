import Verif.Model.Base
/-! # apilevel/levels.go -/
namespace Apk

/-- apilevel/levels.go:50-52 -/
def supportsSigV2 (level : Int) : Bool := decide (level ≥ 24)
/-- apilevel/levels.go:54-56 -/
def supportsSigV3 (level : Int) : Bool := decide (level ≥ 28)
/-- apilevel/levels.go:58-60 -/
def supportsSigV31 (level : Int) : Bool := decide (level ≥ 33)
/-- apilevel/levels.go:62-64 -/
def requiresSandboxV2 (level : Int) : Bool := decide (level ≥ 26)
/-- apilevel/levels.go:12-13 -/
def vAnyMin : Int := -1
/-- apilevel/levels.go:12-13 -/
def vAnyMax : Int := maxInt32

end Apk
