/-
The table of exceptions (generated from libcob/exception.def).
-/
namespace Cob.Exc

/-- libcob/exception.def:24-339 with libcob/common.c:115-129: codes and names (as bytes) of
`cob_exception_tab_code` and `cob_exception_tab_name`; the entries `COB_EC_ZERO` in front and
`COB_EC_MAX` behind, with code 0 and no name, are added in `tabCode` and `exceptionName`. -/
def table : List (Nat × List Nat) := [
  (0xffff, [69, 67, 45, 65, 76, 76]),
  (0x0100, [69, 67, 45, 65, 82, 71, 85, 77, 69, 78, 84]),
  (0x0101, [69, 67, 45, 65, 82, 71, 85, 77, 69, 78, 84, 45, 70, 85, 78, 67, 84, 73, 79, 78]),
  (0x0102, [69, 67, 45, 65, 82, 71, 85, 77, 69, 78, 84, 45, 73, 77, 80]),
  (0x0200, [69, 67, 45, 66, 79, 85, 78, 68]),
  (0x0201, [69, 67, 45, 66, 79, 85, 78, 68, 45, 73, 77, 80]),
  (0x0202, [69, 67, 45, 66, 79, 85, 78, 68, 45, 79, 68, 79]),
  (0x0203, [69, 67, 45, 66, 79, 85, 78, 68, 45, 79, 86, 69, 82, 70, 76, 79, 87]),
  (0x0204, [69, 67, 45, 66, 79, 85, 78, 68, 45, 80, 84, 82]),
  (0x0205, [69, 67, 45, 66, 79, 85, 78, 68, 45, 82, 69, 70, 45, 77, 79, 68]),
  (0x0206, [69, 67, 45, 66, 79, 85, 78, 68, 45, 83, 69, 84]),
  (0x0207, [69, 67, 45, 66, 79, 85, 78, 68, 45, 83, 85, 66, 83, 67, 82, 73, 80, 84]),
  (0x0208, [69, 67, 45, 66, 79, 85, 78, 68, 45, 84, 65, 66, 76, 69, 45, 76, 73, 77, 73, 84]),
  (0x0300, [69, 67, 45, 68, 65, 84, 65]),
  (0x0301, [69, 67, 45, 68, 65, 84, 65, 45, 67, 79, 78, 86, 69, 82, 83, 73, 79, 78]),
  (0x0302, [69, 67, 45, 68, 65, 84, 65, 45, 73, 77, 80]),
  (0x0303, [69, 67, 45, 68, 65, 84, 65, 45, 73, 78, 67, 79, 77, 80, 65, 84, 73, 66, 76, 69]),
  (0x0304, [69, 67, 45, 68, 65, 84, 65, 45, 73, 78, 84, 69, 71, 82, 73, 84, 89]),
  (0x0305, [69, 67, 45, 68, 65, 84, 65, 45, 80, 84, 82, 45, 78, 85, 76, 76]),
  (0x0306, [69, 67, 45, 68, 65, 84, 65, 45, 73, 78, 70, 73, 78, 73, 84, 89]),
  (0x0307, [69, 67, 45, 68, 65, 84, 65, 45, 78, 69, 71, 65, 84, 73, 86, 69, 45, 73, 78, 70, 73, 78, 73, 84, 89]),
  (0x0308, [69, 67, 45, 68, 65, 84, 65, 45, 78, 79, 84, 95, 65, 95, 78, 85, 77, 66, 69, 82]),
  (0x0400, [69, 67, 45, 70, 76, 79, 87]),
  (0x0401, [69, 67, 45, 70, 76, 79, 87, 45, 71, 76, 79, 66, 65, 76, 45, 69, 88, 73, 84]),
  (0x0402, [69, 67, 45, 70, 76, 79, 87, 45, 71, 76, 79, 66, 65, 76, 45, 71, 79, 66, 65, 67, 75]),
  (0x0403, [69, 67, 45, 70, 76, 79, 87, 45, 73, 77, 80]),
  (0x0404, [69, 67, 45, 70, 76, 79, 87, 45, 82, 69, 76, 69, 65, 83, 69]),
  (0x0405, [69, 67, 45, 70, 76, 79, 87, 45, 82, 69, 80, 79, 82, 84]),
  (0x0406, [69, 67, 45, 70, 76, 79, 87, 45, 82, 69, 84, 85, 82, 78]),
  (0x0407, [69, 67, 45, 70, 76, 79, 87, 45, 83, 69, 65, 82, 67, 72]),
  (0x0408, [69, 67, 45, 70, 76, 79, 87, 45, 85, 83, 69]),
  (0x0500, [69, 67, 45, 73, 45, 79]),
  (0x0501, [69, 67, 45, 73, 45, 79, 45, 65, 84, 45, 69, 78, 68]),
  (0x0502, [69, 67, 45, 73, 45, 79, 45, 69, 79, 80]),
  (0x0503, [69, 67, 45, 73, 45, 79, 45, 69, 79, 80, 45, 79, 86, 69, 82, 70, 76, 79, 87]),
  (0x0504, [69, 67, 45, 73, 45, 79, 45, 70, 73, 76, 69, 45, 83, 72, 65, 82, 73, 78, 71]),
  (0x0505, [69, 67, 45, 73, 45, 79, 45, 73, 77, 80]),
  (0x0506, [69, 67, 45, 73, 45, 79, 45, 73, 78, 86, 65, 76, 73, 68, 45, 75, 69, 89]),
  (0x0507, [69, 67, 45, 73, 45, 79, 45, 76, 73, 78, 65, 71, 69]),
  (0x0508, [69, 67, 45, 73, 45, 79, 45, 76, 79, 71, 73, 67, 45, 69, 82, 82, 79, 82]),
  (0x0509, [69, 67, 45, 73, 45, 79, 45, 80, 69, 82, 77, 65, 78, 69, 78, 84, 45, 69, 82, 82, 79, 82]),
  (0x050a, [69, 67, 45, 73, 45, 79, 45, 82, 69, 67, 79, 82, 68, 45, 79, 80, 69, 82, 65, 84, 73, 79, 78]),
  (0x0600, [69, 67, 45, 73, 77, 80]),
  (0x0601, [69, 67, 45, 73, 77, 80, 45, 65, 67, 67, 69, 80, 84]),
  (0x0602, [69, 67, 45, 73, 77, 80, 45, 68, 73, 83, 80, 76, 65, 89]),
  (0x0700, [69, 67, 45, 76, 79, 67, 65, 76, 69]),
  (0x0701, [69, 67, 45, 76, 79, 67, 65, 76, 69, 45, 73, 77, 80]),
  (0x0702, [69, 67, 45, 76, 79, 67, 65, 76, 69, 45, 73, 78, 67, 79, 77, 80, 65, 84, 73, 66, 76, 69]),
  (0x0703, [69, 67, 45, 76, 79, 67, 65, 76, 69, 45, 73, 78, 86, 65, 76, 73, 68]),
  (0x0704, [69, 67, 45, 76, 79, 67, 65, 76, 69, 45, 73, 78, 86, 65, 76, 73, 68, 45, 80, 84, 82]),
  (0x0705, [69, 67, 45, 76, 79, 67, 65, 76, 69, 45, 77, 73, 83, 83, 73, 78, 71]),
  (0x0706, [69, 67, 45, 76, 79, 67, 65, 76, 69, 45, 83, 73, 90, 69]),
  (0x0800, [69, 67, 45, 79, 79]),
  (0x0801, [69, 67, 45, 79, 79, 45, 67, 79, 78, 70, 79, 82, 77, 65, 78, 67, 69]),
  (0x0802, [69, 67, 45, 79, 79, 45, 69, 88, 67, 69, 80, 84, 73, 79, 78]),
  (0x0803, [69, 67, 45, 79, 79, 45, 73, 77, 80]),
  (0x0804, [69, 67, 45, 79, 79, 45, 77, 69, 84, 72, 79, 68]),
  (0x0805, [69, 67, 45, 79, 79, 45, 78, 85, 76, 76]),
  (0x0806, [69, 67, 45, 79, 79, 45, 82, 69, 83, 79, 85, 82, 67, 69]),
  (0x0807, [69, 67, 45, 79, 79, 45, 85, 78, 73, 86, 69, 82, 83, 65, 76]),
  (0x0900, [69, 67, 45, 79, 82, 68, 69, 82]),
  (0x0901, [69, 67, 45, 79, 82, 68, 69, 82, 45, 73, 77, 80]),
  (0x0902, [69, 67, 45, 79, 82, 68, 69, 82, 45, 78, 79, 84, 45, 83, 85, 80, 80, 79, 82, 84, 69, 68]),
  (0x0a00, [69, 67, 45, 79, 86, 69, 82, 70, 76, 79, 87]),
  (0x0a01, [69, 67, 45, 79, 86, 69, 82, 70, 76, 79, 87, 45, 73, 77, 80]),
  (0x0a02, [69, 67, 45, 79, 86, 69, 82, 70, 76, 79, 87, 45, 83, 84, 82, 73, 78, 71]),
  (0x0a03, [69, 67, 45, 79, 86, 69, 82, 70, 76, 79, 87, 45, 85, 78, 83, 84, 82, 73, 78, 71]),
  (0x0b00, [69, 67, 45, 80, 82, 79, 71, 82, 65, 77]),
  (0x0b01, [69, 67, 45, 80, 82, 79, 71, 82, 65, 77, 45, 65, 82, 71, 45, 77, 73, 83, 77, 65, 84, 67, 72]),
  (0x0b02, [69, 67, 45, 80, 82, 79, 71, 82, 65, 77, 45, 65, 82, 71, 45, 79, 77, 73, 84, 84, 69, 68]),
  (0x0b03, [69, 67, 45, 80, 82, 79, 71, 82, 65, 77, 45, 67, 65, 78, 67, 69, 76, 45, 65, 67, 84, 73, 86, 69]),
  (0x0b04, [69, 67, 45, 80, 82, 79, 71, 82, 65, 77, 45, 73, 77, 80]),
  (0x0b05, [69, 67, 45, 80, 82, 79, 71, 82, 65, 77, 45, 78, 79, 84, 45, 70, 79, 85, 78, 68]),
  (0x0b06, [69, 67, 45, 80, 82, 79, 71, 82, 65, 77, 45, 80, 84, 82, 45, 78, 85, 76, 76]),
  (0x0b07, [69, 67, 45, 80, 82, 79, 71, 82, 65, 77, 45, 82, 69, 67, 85, 82, 83, 73, 86, 69, 45, 67, 65, 76, 76]),
  (0x0b08, [69, 67, 45, 80, 82, 79, 71, 82, 65, 77, 45, 82, 69, 83, 79, 85, 82, 67, 69, 83]),
  (0x0c00, [69, 67, 45, 82, 65, 73, 83, 73, 78, 71]),
  (0x0c01, [69, 67, 45, 82, 65, 73, 83, 73, 78, 71, 45, 73, 77, 80]),
  (0x0c02, [69, 67, 45, 82, 65, 73, 83, 73, 78, 71, 45, 78, 79, 84, 45, 83, 80, 69, 67, 73, 70, 73, 69, 68]),
  (0x0d00, [69, 67, 45, 82, 65, 78, 71, 69]),
  (0x0d01, [69, 67, 45, 82, 65, 78, 71, 69, 45, 73, 77, 80]),
  (0x0d02, [69, 67, 45, 82, 65, 78, 71, 69, 45, 73, 78, 68, 69, 88]),
  (0x0d03, [69, 67, 45, 82, 65, 78, 71, 69, 45, 73, 78, 83, 80, 69, 67, 84, 45, 83, 73, 90, 69]),
  (0x0d04, [69, 67, 45, 82, 65, 78, 71, 69, 45, 73, 78, 86, 65, 76, 73, 68]),
  (0x0d05, [69, 67, 45, 82, 65, 78, 71, 69, 45, 80, 69, 82, 70, 79, 82, 77, 45, 86, 65, 82, 89, 73, 78, 71]),
  (0x0d06, [69, 67, 45, 82, 65, 78, 71, 69, 45, 80, 84, 82]),
  (0x0d07, [69, 67, 45, 82, 65, 78, 71, 69, 45, 83, 69, 65, 82, 67, 72, 45, 73, 78, 68, 69, 88]),
  (0x0d08, [69, 67, 45, 82, 65, 78, 71, 69, 45, 83, 69, 65, 82, 67, 72, 45, 78, 79, 45, 77, 65, 84, 67, 72]),
  (0x0e00, [69, 67, 45, 82, 69, 80, 79, 82, 84]),
  (0x0e01, [69, 67, 45, 82, 69, 80, 79, 82, 84, 45, 65, 67, 84, 73, 86, 69]),
  (0x0e02, [69, 67, 45, 82, 69, 80, 79, 82, 84, 45, 67, 79, 76, 85, 77, 78, 45, 79, 86, 69, 82, 76, 65, 80]),
  (0x0e03, [69, 67, 45, 82, 69, 80, 79, 82, 84, 45, 70, 73, 76, 69, 45, 77, 79, 68, 69]),
  (0x0e04, [69, 67, 45, 82, 69, 80, 79, 82, 84, 45, 73, 77, 80]),
  (0x0e05, [69, 67, 45, 82, 69, 80, 79, 82, 84, 45, 73, 78, 65, 67, 84, 73, 86, 69]),
  (0x0e06, [69, 67, 45, 82, 69, 80, 79, 82, 84, 45, 76, 73, 78, 69, 45, 79, 86, 69, 82, 76, 65, 80]),
  (0x0e08, [69, 67, 45, 82, 69, 80, 79, 82, 84, 45, 78, 79, 84, 45, 84, 69, 82, 77, 73, 78, 65, 84, 69, 68]),
  (0x0e09, [69, 67, 45, 82, 69, 80, 79, 82, 84, 45, 80, 65, 71, 69, 45, 76, 73, 77, 73, 84]),
  (0x0e0a, [69, 67, 45, 82, 69, 80, 79, 82, 84, 45, 80, 65, 71, 69, 45, 87, 73, 68, 84, 72]),
  (0x0e0b, [69, 67, 45, 82, 69, 80, 79, 82, 84, 45, 83, 85, 77, 45, 83, 73, 90, 69]),
  (0x0e0c, [69, 67, 45, 82, 69, 80, 79, 82, 84, 45, 86, 65, 82, 89, 73, 78, 71]),
  (0x0f00, [69, 67, 45, 83, 67, 82, 69, 69, 78]),
  (0x0f01, [69, 67, 45, 83, 67, 82, 69, 69, 78, 45, 70, 73, 69, 76, 68, 45, 79, 86, 69, 82, 76, 65, 80]),
  (0x0f02, [69, 67, 45, 83, 67, 82, 69, 69, 78, 45, 73, 77, 80]),
  (0x0f03, [69, 67, 45, 83, 67, 82, 69, 69, 78, 45, 73, 84, 69, 77, 45, 84, 82, 85, 78, 67, 65, 84, 69, 68]),
  (0x0f04, [69, 67, 45, 83, 67, 82, 69, 69, 78, 45, 76, 73, 78, 69, 45, 78, 85, 77, 66, 69, 82]),
  (0x0f05, [69, 67, 45, 83, 67, 82, 69, 69, 78, 45, 83, 84, 65, 82, 84, 73, 78, 71, 45, 67, 79, 76, 85, 77, 78]),
  (0x1000, [69, 67, 45, 83, 73, 90, 69]),
  (0x1001, [69, 67, 45, 83, 73, 90, 69, 45, 65, 68, 68, 82, 69, 83, 83]),
  (0x1002, [69, 67, 45, 83, 73, 90, 69, 45, 69, 88, 80, 79, 78, 69, 78, 84, 73, 65, 84, 73, 79, 78]),
  (0x1003, [69, 67, 45, 83, 73, 90, 69, 45, 73, 77, 80]),
  (0x1004, [69, 67, 45, 83, 73, 90, 69, 45, 79, 86, 69, 82, 70, 76, 79, 87]),
  (0x1005, [69, 67, 45, 83, 73, 90, 69, 45, 84, 82, 85, 78, 67, 65, 84, 73, 79, 78]),
  (0x1006, [69, 67, 45, 83, 73, 90, 69, 45, 85, 78, 68, 69, 82, 70, 76, 79, 87]),
  (0x1007, [69, 67, 45, 83, 73, 90, 69, 45, 90, 69, 82, 79, 45, 68, 73, 86, 73, 68, 69]),
  (0x1100, [69, 67, 45, 83, 79, 82, 84, 45, 77, 69, 82, 71, 69]),
  (0x1101, [69, 67, 45, 83, 79, 82, 84, 45, 77, 69, 82, 71, 69, 45, 65, 67, 84, 73, 86, 69]),
  (0x1102, [69, 67, 45, 83, 79, 82, 84, 45, 77, 69, 82, 71, 69, 45, 70, 73, 76, 69, 45, 79, 80, 69, 78]),
  (0x1103, [69, 67, 45, 83, 79, 82, 84, 45, 77, 69, 82, 71, 69, 45, 73, 77, 80]),
  (0x1104, [69, 67, 45, 83, 79, 82, 84, 45, 77, 69, 82, 71, 69, 45, 82, 69, 76, 69, 65, 83, 69]),
  (0x1105, [69, 67, 45, 83, 79, 82, 84, 45, 77, 69, 82, 71, 69, 45, 82, 69, 84, 85, 82, 78]),
  (0x1106, [69, 67, 45, 83, 79, 82, 84, 45, 77, 69, 82, 71, 69, 45, 83, 69, 81, 85, 69, 78, 67, 69]),
  (0x1200, [69, 67, 45, 83, 84, 79, 82, 65, 71, 69]),
  (0x1201, [69, 67, 45, 83, 84, 79, 82, 65, 71, 69, 45, 73, 77, 80]),
  (0x1202, [69, 67, 45, 83, 84, 79, 82, 65, 71, 69, 45, 78, 79, 84, 45, 65, 76, 76, 79, 67]),
  (0x1203, [69, 67, 45, 83, 84, 79, 82, 65, 71, 69, 45, 78, 79, 84, 45, 65, 86, 65, 73, 76]),
  (0x1300, [69, 67, 45, 85, 83, 69, 82]),
  (0x1400, [69, 67, 45, 86, 65, 76, 73, 68, 65, 84, 69]),
  (0x1401, [69, 67, 45, 86, 65, 76, 73, 68, 65, 84, 69, 45, 67, 79, 78, 84, 69, 78, 84]),
  (0x1402, [69, 67, 45, 86, 65, 76, 73, 68, 65, 84, 69, 45, 70, 79, 82, 77, 65, 84]),
  (0x1403, [69, 67, 45, 86, 65, 76, 73, 68, 65, 84, 69, 45, 73, 77, 80]),
  (0x1404, [69, 67, 45, 86, 65, 76, 73, 68, 65, 84, 69, 45, 82, 69, 76, 65, 84, 73, 79, 78]),
  (0x1405, [69, 67, 45, 86, 65, 76, 73, 68, 65, 84, 69, 45, 86, 65, 82, 89, 73, 78, 71]),
  (0x1500, [69, 67, 45, 70, 85, 78, 67, 84, 73, 79, 78]),
  (0x1501, [69, 67, 45, 70, 85, 78, 67, 84, 73, 79, 78, 45, 78, 79, 84, 45, 70, 79, 85, 78, 68]),
  (0x1502, [69, 67, 45, 70, 85, 78, 67, 84, 73, 79, 78, 45, 80, 84, 82, 45, 73, 78, 86, 65, 76, 73, 68]),
  (0x1503, [69, 67, 45, 70, 85, 78, 67, 84, 73, 79, 78, 45, 80, 84, 82, 45, 78, 85, 76, 76]),
  (0x1600, [69, 67, 45, 88, 77, 76]),
  (0x1601, [69, 67, 45, 88, 77, 76, 45, 67, 79, 68, 69, 83, 69, 84]),
  (0x1602, [69, 67, 45, 88, 77, 76, 45, 67, 79, 68, 69, 83, 69, 84, 45, 67, 79, 78, 86, 69, 82, 83, 73, 79, 78]),
  (0x1603, [69, 67, 45, 88, 77, 76, 45, 67, 79, 85, 78, 84]),
  (0x1604, [69, 67, 45, 88, 77, 76, 45, 68, 79, 67, 85, 77, 69, 78, 84, 45, 84, 89, 80, 69]),
  (0x1605, [69, 67, 45, 88, 77, 76, 45, 73, 77, 80, 76, 73, 67, 73, 84, 45, 67, 76, 79, 83, 69]),
  (0x1606, [69, 67, 45, 88, 77, 76, 45, 73, 78, 86, 65, 76, 73, 68]),
  (0x1607, [69, 67, 45, 88, 77, 76, 45, 78, 65, 77, 69, 83, 80, 65, 67, 69]),
  (0x1608, [69, 67, 45, 88, 77, 76, 45, 83, 84, 65, 67, 75, 69, 68, 45, 79, 80, 69, 78]),
  (0x1609, [69, 67, 45, 88, 77, 76, 45, 82, 65, 78, 71, 69])]

end Cob.Exc
