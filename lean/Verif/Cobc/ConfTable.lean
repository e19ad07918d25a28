/-
The table of settings of the compiler's configuration, generated from /repo/cobc/config.def and /repo/cobc/config.c:63-80.
-/
namespace Cob.Conf

/-- /repo/cobc/config.c:45-53 `cb_config_type`. -/
inductive Ty where
  | any | int | str | chr | bool | support
deriving DecidableEq

/-- A setting: its tag and the type of its values. -/
structure Entry where
  name : List Nat
  ty : Ty
deriving DecidableEq

/-- include -/
def sInclude : List Nat := [105, 110, 99, 108, 117, 100, 101]
/-- not-reserved -/
def sNotReserved : List Nat := [110, 111, 116, 45, 114, 101, 115, 101, 114, 118, 101, 100]

/-- /repo/cobc/config.def:21-82: the settings, behind `include` and `not-reserved`. -/
def settings : List Entry := [
  ⟨[110, 97, 109, 101], .str⟩,
  ⟨[100, 101, 102, 97, 117, 108, 116, 45, 99, 117, 114, 114, 101, 110, 99, 121, 45, 115, 121, 109, 98, 111, 108], .chr⟩,
  ⟨[116, 97, 98, 45, 119, 105, 100, 116, 104], .int⟩,
  ⟨[116, 101, 120, 116, 45, 99, 111, 108, 117, 109, 110], .int⟩,
  ⟨[100, 101, 102, 97, 117, 108, 116, 45, 111, 114, 103, 97, 110, 105, 122, 97, 116, 105, 111, 110], .any⟩,
  ⟨[109, 97, 120, 45, 97, 108, 112, 104, 97, 45, 99, 104, 97, 114, 97, 99, 116, 101, 114, 45, 100, 97, 116, 97, 45, 115, 105, 122, 101], .int⟩,
  ⟨[109, 97, 120, 45, 115, 106, 105, 115, 45, 99, 104, 97, 114, 97, 99, 116, 101, 114, 45, 100, 97, 116, 97, 45, 115, 105, 122, 101], .int⟩,
  ⟨[109, 97, 120, 45, 117, 116, 102, 56, 45, 99, 104, 97, 114, 97, 99, 116, 101, 114, 45, 100, 97, 116, 97, 45, 115, 105, 122, 101], .int⟩,
  ⟨[97, 115, 115, 105, 103, 110, 45, 99, 108, 97, 117, 115, 101], .any⟩,
  ⟨[98, 105, 110, 97, 114, 121, 45, 115, 105, 122, 101], .any⟩,
  ⟨[98, 105, 110, 97, 114, 121, 45, 98, 121, 116, 101, 111, 114, 100, 101, 114], .any⟩,
  ⟨[97, 98, 111, 114, 116, 45, 111, 110, 45, 105, 111, 45, 101, 120, 99, 101, 112, 116, 105, 111, 110], .any⟩,
  ⟨[102, 105, 108, 101, 110, 97, 109, 101, 45, 109, 97, 112, 112, 105, 110, 103], .bool⟩,
  ⟨[112, 114, 101, 116, 116, 121, 45, 100, 105, 115, 112, 108, 97, 121], .bool⟩,
  ⟨[98, 105, 110, 97, 114, 121, 45, 116, 114, 117, 110, 99, 97, 116, 101], .bool⟩,
  ⟨[97, 117, 116, 111, 45, 105, 110, 105, 116, 105, 97, 108, 105, 122, 101], .bool⟩,
  ⟨[99, 111, 109, 112, 108, 101, 120, 45, 111, 100, 111], .bool⟩,
  ⟨[105, 110, 100, 105, 114, 101, 99, 116, 45, 114, 101, 100, 101, 102, 105, 110, 101, 115], .bool⟩,
  ⟨[108, 97, 114, 103, 101, 114, 45, 114, 101, 100, 101, 102, 105, 110, 101, 115, 45, 111, 107], .bool⟩,
  ⟨[114, 101, 108, 97, 120, 101, 100, 45, 115, 121, 110, 116, 97, 120, 45, 99, 104, 101, 99, 107], .bool⟩,
  ⟨[112, 101, 114, 102, 111, 114, 109, 45, 111, 115, 118, 115], .bool⟩,
  ⟨[115, 116, 105, 99, 107, 121, 45, 108, 105, 110, 107, 97, 103, 101], .bool⟩,
  ⟨[97, 115, 115, 105, 103, 110, 95, 101, 120, 116, 101, 114, 110, 97, 108], .bool⟩,
  ⟨[114, 101, 108, 97, 120, 45, 108, 101, 118, 101, 108, 45, 104, 105, 101, 114, 97, 114, 99, 104, 121], .bool⟩,
  ⟨[99, 56, 57, 45, 105, 100, 101, 110, 116, 105, 102, 105, 101, 114, 45, 108, 101, 110, 103, 116, 104, 45, 99, 104, 101, 99, 107], .bool⟩,
  ⟨[97, 108, 108, 111, 119, 45, 101, 110, 100, 45, 112, 114, 111, 103, 114, 97, 109, 45, 119, 105, 116, 104, 45, 119, 114, 111, 110, 103, 45, 110, 97, 109, 101], .bool⟩,
  ⟨[97, 108, 108, 111, 119, 45, 109, 105, 115, 115, 105, 110, 103, 45, 97, 108, 115, 111, 45, 99, 108, 97, 117, 115, 101, 45, 105, 110, 45, 101, 118, 97, 108, 117, 97, 116, 101], .bool⟩,
  ⟨[97, 108, 108, 111, 119, 45, 101, 109, 112, 116, 121, 45, 105, 109, 112, 101, 114, 97, 116, 105, 118, 101, 45, 115, 116, 97, 116, 101, 109, 101, 110, 116], .bool⟩,
  ⟨[101, 110, 97, 98, 108, 101, 45, 112, 114, 111, 103, 114, 97, 109, 45, 115, 116, 97, 116, 117, 115, 45, 114, 101, 103, 105, 115, 116, 101, 114], .bool⟩,
  ⟨[101, 110, 97, 98, 108, 101, 45, 115, 111, 114, 116, 45, 115, 116, 97, 116, 117, 115, 45, 114, 101, 103, 105, 115, 116, 101, 114], .bool⟩,
  ⟨[101, 110, 97, 98, 108, 101, 45, 115, 112, 101, 99, 105, 97, 108, 45, 110, 97, 109, 101, 115, 45, 97, 114, 103, 117, 109, 101, 110, 116, 45, 99, 108, 97, 117, 115, 101], .bool⟩,
  ⟨[101, 110, 97, 98, 108, 101, 45, 115, 112, 101, 99, 105, 97, 108, 45, 110, 97, 109, 101, 115, 45, 101, 110, 118, 105, 114, 111, 110, 109, 101, 110, 116, 45, 99, 108, 97, 117, 115, 101], .bool⟩,
  ⟨[101, 110, 97, 98, 108, 101, 45, 108, 101, 110, 103, 45, 105, 110, 116, 114, 105, 110, 115, 105, 99, 45, 102, 117, 110, 99, 116, 105, 111, 110], .bool⟩,
  ⟨[101, 110, 97, 98, 108, 101, 45, 108, 101, 110, 103, 116, 104, 45, 97, 110, 45, 105, 110, 116, 114, 105, 110, 115, 105, 99, 45, 102, 117, 110, 99, 116, 105, 111, 110], .bool⟩,
  ⟨[101, 110, 97, 98, 108, 101, 45, 110, 97, 116, 105, 111, 110, 97, 108, 45, 105, 110, 116, 114, 105, 110, 115, 105, 99, 45, 102, 117, 110, 99, 116, 105, 111, 110], .bool⟩,
  ⟨[117, 115, 101, 45, 105, 110, 118, 97, 108, 105, 100, 107, 101, 121, 45, 104, 97, 110, 100, 108, 101, 114, 45, 111, 110, 45, 115, 116, 97, 116, 117, 115, 51, 52], .bool⟩,
  ⟨[99, 111, 98, 111, 108, 54, 56, 45, 99, 111, 112, 121, 45, 105, 110, 45, 100, 97, 116, 97, 45, 100, 101, 115, 99, 114, 105, 112, 116, 105, 111, 110], .bool⟩,
  ⟨[115, 119, 105, 116, 99, 104, 45, 110, 111, 45, 109, 110, 101, 109, 111, 110, 105, 99], .bool⟩,
  ⟨[97, 108, 108, 111, 119, 45, 105, 115, 45, 105, 110, 45, 115, 111, 114, 116, 45, 107, 101, 121, 45, 115, 112, 101, 99], .bool⟩,
  ⟨[97, 108, 108, 111, 119, 45, 115, 101, 97, 114, 99, 104, 45, 107, 101, 121, 45, 105, 110, 45, 114, 104, 115], .bool⟩,
  ⟨[105, 103, 110, 111, 114, 101, 45, 105, 110, 118, 97, 108, 105, 100, 45, 114, 101, 99, 111, 114, 100, 45, 99, 111, 110, 116, 97, 105, 110, 115], .bool⟩,
  ⟨[101, 110, 97, 98, 108, 101, 45, 122, 101, 114, 111, 45, 100, 105, 118, 105, 115, 105, 111, 110, 45, 101, 114, 114, 111, 114], .bool⟩,
  ⟨[101, 110, 97, 98, 108, 101, 45, 99, 104, 101, 99, 107, 45, 115, 117, 98, 115, 99, 114, 105, 112, 116, 45, 111, 117, 116, 45, 111, 102, 45, 98, 111, 117, 110, 100, 115], .bool⟩,
  ⟨[101, 110, 97, 98, 108, 101, 45, 101, 120, 112, 101, 99, 116, 45, 110, 117, 109, 101, 114, 105, 99, 45, 101, 114, 114, 111, 114], .bool⟩,
  ⟨[101, 110, 97, 98, 108, 101, 45, 101, 120, 112, 101, 99, 116, 45, 99, 111, 109, 112, 117, 116, 101, 45, 115, 116, 114, 105, 110, 103, 45, 101, 114, 114, 111, 114], .bool⟩,
  ⟨[97, 117, 116, 104, 111, 114, 45, 112, 97, 114, 97, 103, 114, 97, 112, 104], .support⟩,
  ⟨[109, 101, 109, 111, 114, 121, 45, 115, 105, 122, 101, 45, 99, 108, 97, 117, 115, 101], .support⟩,
  ⟨[109, 117, 108, 116, 105, 112, 108, 101, 45, 102, 105, 108, 101, 45, 116, 97, 112, 101, 45, 99, 108, 97, 117, 115, 101], .support⟩,
  ⟨[108, 97, 98, 101, 108, 45, 114, 101, 99, 111, 114, 100, 115, 45, 99, 108, 97, 117, 115, 101], .support⟩,
  ⟨[118, 97, 108, 117, 101, 45, 111, 102, 45, 99, 108, 97, 117, 115, 101], .support⟩,
  ⟨[100, 97, 116, 97, 45, 114, 101, 99, 111, 114, 100, 115, 45, 99, 108, 97, 117, 115, 101], .support⟩,
  ⟨[116, 111, 112, 45, 108, 101, 118, 101, 108, 45, 111, 99, 99, 117, 114, 115, 45, 99, 108, 97, 117, 115, 101], .support⟩,
  ⟨[115, 121, 110, 99, 104, 114, 111, 110, 105, 122, 101, 100, 45, 99, 108, 97, 117, 115, 101], .support⟩,
  ⟨[103, 111, 116, 111, 45, 115, 116, 97, 116, 101, 109, 101, 110, 116, 45, 119, 105, 116, 104, 111, 117, 116, 45, 110, 97, 109, 101], .support⟩,
  ⟨[115, 116, 111, 112, 45, 108, 105, 116, 101, 114, 97, 108, 45, 115, 116, 97, 116, 101, 109, 101, 110, 116], .support⟩,
  ⟨[100, 101, 98, 117, 103, 103, 105, 110, 103, 45, 108, 105, 110, 101], .support⟩,
  ⟨[112, 97, 100, 100, 105, 110, 103, 45, 99, 104, 97, 114, 97, 99, 116, 101, 114, 45, 99, 108, 97, 117, 115, 101], .support⟩,
  ⟨[110, 101, 120, 116, 45, 115, 101, 110, 116, 101, 110, 99, 101, 45, 112, 104, 114, 97, 115, 101], .support⟩,
  ⟨[101, 106, 101, 99, 116, 45, 115, 116, 97, 116, 101, 109, 101, 110, 116], .support⟩,
  ⟨[101, 110, 116, 114, 121, 45, 115, 116, 97, 116, 101, 109, 101, 110, 116], .support⟩,
  ⟨[109, 111, 118, 101, 45, 110, 111, 110, 105, 110, 116, 101, 103, 101, 114, 45, 116, 111, 45, 97, 108, 112, 104, 97, 110, 117, 109, 101, 114, 105, 99], .support⟩,
  ⟨[111, 100, 111, 45, 119, 105, 116, 104, 111, 117, 116, 45, 116, 111], .support⟩]

/-- /repo/cobc/config.c:57-80 `config_table`. -/
def configTable : List Entry := ⟨sInclude, .str⟩ :: ⟨sNotReserved, .str⟩ :: settings

end Cob.Conf
