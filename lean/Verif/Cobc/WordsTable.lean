/-
The tables of words of the compiler, generated from /repo/cobc/reserved.c (the branches for machines other than MVS).
-/
namespace Cob.Words

/-- A reserved word: its spelling and the name of its token, `none` for -1 (not supported). -/
structure Reserved where
  name : List Nat
  token : Option String
deriving DecidableEq

/-- An intrinsic function: its name, the number of arguments (-1: any) and whether it is implemented. -/
structure Function where
  name : List Nat
  args : Int
  implemented : Bool
deriving DecidableEq

/-- /repo/cobc/reserved.c:86-633 `reserved_words`. -/
def reservedWords : List Reserved := [
  ⟨[65, 67, 67, 69, 80, 84], some "ACCEPT"⟩,
  ⟨[65, 67, 67, 69, 83, 83], some "ACCESS"⟩,
  ⟨[65, 67, 84, 73, 86, 69, 45, 67, 76, 65, 83, 83], none⟩,
  ⟨[65, 68, 68], some "ADD"⟩,
  ⟨[65, 68, 68, 82, 69, 83, 83], some "ADDRESS"⟩,
  ⟨[65, 68, 86, 65, 78, 67, 73, 78, 71], some "ADVANCING"⟩,
  ⟨[65, 70, 84, 69, 82], some "AFTER"⟩,
  ⟨[65, 76, 73, 71, 78, 69, 68], none⟩,
  ⟨[65, 76, 76], some "ALL"⟩,
  ⟨[65, 76, 76, 79, 67, 65, 84, 69], some "ALLOCATE"⟩,
  ⟨[65, 76, 80, 72, 65, 66, 69, 84], some "ALPHABET"⟩,
  ⟨[65, 76, 80, 72, 65, 66, 69, 84, 73, 67], some "ALPHABETIC"⟩,
  ⟨[65, 76, 80, 72, 65, 66, 69, 84, 73, 67, 45, 76, 79, 87, 69, 82], some "ALPHABETIC_LOWER"⟩,
  ⟨[65, 76, 80, 72, 65, 66, 69, 84, 73, 67, 45, 85, 80, 80, 69, 82], some "ALPHABETIC_UPPER"⟩,
  ⟨[65, 76, 80, 72, 65, 78, 85, 77, 69, 82, 73, 67], some "ALPHANUMERIC"⟩,
  ⟨[65, 76, 80, 72, 65, 78, 85, 77, 69, 82, 73, 67, 45, 69, 68, 73, 84, 69, 68], some "ALPHANUMERIC_EDITED"⟩,
  ⟨[65, 76, 83, 79], some "ALSO"⟩,
  ⟨[65, 76, 84, 69, 82], some "ALTER"⟩,
  ⟨[65, 76, 84, 69, 82, 78, 65, 84, 69], some "ALTERNATE"⟩,
  ⟨[65, 78, 68], some "AND"⟩,
  ⟨[65, 78, 89], some "ANY"⟩,
  ⟨[65, 78, 89, 67, 65, 83, 69], none⟩,
  ⟨[65, 80, 80, 76, 89], some "APPLY"⟩,
  ⟨[65, 82, 69], some "ARE"⟩,
  ⟨[65, 82, 69, 65], some "AREA"⟩,
  ⟨[65, 82, 69, 65, 83], some "AREA"⟩,
  ⟨[65, 82, 71, 85, 77, 69, 78, 84, 45, 78, 85, 77, 66, 69, 82], some "ARGUMENT_NUMBER"⟩,
  ⟨[65, 82, 71, 85, 77, 69, 78, 84, 45, 86, 65, 76, 85, 69], some "ARGUMENT_VALUE"⟩,
  ⟨[65, 82, 73, 84, 72, 77, 69, 84, 73, 67], none⟩,
  ⟨[65, 83], some "AS"⟩,
  ⟨[65, 83, 67, 69, 78, 68, 73, 78, 71], some "ASCENDING"⟩,
  ⟨[65, 83, 83, 73, 71, 78], some "ASSIGN"⟩,
  ⟨[65, 84], some "AT"⟩,
  ⟨[65, 84, 84, 82, 73, 66, 85, 84, 69], none⟩,
  ⟨[65, 85, 84, 79], some "AUTO"⟩,
  ⟨[65, 85, 84, 79, 45, 83, 75, 73, 80], some "AUTO"⟩,
  ⟨[65, 85, 84, 79, 77, 65, 84, 73, 67], some "AUTOMATIC"⟩,
  ⟨[65, 85, 84, 79, 84, 69, 82, 77, 73, 78, 65, 84, 69], some "AUTO"⟩,
  ⟨[66, 45, 65, 78, 68], none⟩,
  ⟨[66, 45, 78, 79, 84], none⟩,
  ⟨[66, 45, 79, 82], none⟩,
  ⟨[66, 45, 88, 79, 82], none⟩,
  ⟨[66, 65, 67, 75, 71, 82, 79, 85, 78, 68, 45, 67, 79, 76, 79, 82], some "BACKGROUND_COLOR"⟩,
  ⟨[66, 65, 83, 69, 68], some "BASED"⟩,
  ⟨[66, 69, 69, 80], some "BELL"⟩,
  ⟨[66, 69, 70, 79, 82, 69], some "BEFORE"⟩,
  ⟨[66, 69, 76, 76], some "BELL"⟩,
  ⟨[66, 73, 78, 65, 82, 89], some "BINARY"⟩,
  ⟨[66, 73, 78, 65, 82, 89, 45, 67, 45, 76, 79, 78, 71], some "BINARY_C_LONG"⟩,
  ⟨[66, 73, 78, 65, 82, 89, 45, 67, 72, 65, 82], some "BINARY_CHAR"⟩,
  ⟨[66, 73, 78, 65, 82, 89, 45, 68, 79, 85, 66, 76, 69], some "BINARY_DOUBLE"⟩,
  ⟨[66, 73, 78, 65, 82, 89, 45, 76, 79, 78, 71], some "BINARY_LONG"⟩,
  ⟨[66, 73, 78, 65, 82, 89, 45, 83, 72, 79, 82, 84], some "BINARY_SHORT"⟩,
  ⟨[66, 73, 84], none⟩,
  ⟨[66, 76, 65, 78, 75], some "BLANK"⟩,
  ⟨[66, 76, 73, 78, 75], some "BLINK"⟩,
  ⟨[66, 76, 79, 67, 75], some "BLOCK"⟩,
  ⟨[66, 79, 79, 76, 69, 65, 78], none⟩,
  ⟨[66, 79, 84, 84, 79, 77], some "BOTTOM"⟩,
  ⟨[66, 89], some "BY"⟩,
  ⟨[66, 89, 84, 69, 45, 76, 69, 78, 71, 84, 72], some "BYTE_LENGTH"⟩,
  ⟨[67, 65, 76, 76], some "CALL"⟩,
  ⟨[67, 65, 78, 67, 69, 76], some "CANCEL"⟩,
  ⟨[67, 68], none⟩,
  ⟨[67, 69, 78, 84, 69, 82], none⟩,
  ⟨[67, 70], some "CONTROL_FOOTING"⟩,
  ⟨[67, 72], some "CONTROL_HEADING"⟩,
  ⟨[67, 72, 65, 73, 78], none⟩,
  ⟨[67, 72, 65, 73, 78, 73, 78, 71], some "CHAINING"⟩,
  ⟨[67, 72, 65, 82, 65, 67, 84, 69, 82], some "CHARACTER"⟩,
  ⟨[67, 72, 65, 82, 65, 67, 84, 69, 82, 83], some "CHARACTERS"⟩,
  ⟨[67, 76, 65, 83, 83], some "CLASS"⟩,
  ⟨[67, 76, 65, 83, 83, 45, 73, 68], none⟩,
  ⟨[67, 76, 65, 83, 83, 73, 70, 73, 67, 65, 84, 73, 79, 78], none⟩,
  ⟨[67, 76, 79, 83, 69], some "CLOSE"⟩,
  ⟨[67, 76, 79, 83, 69, 45, 78, 79, 70, 69, 69, 68], some "CLOSE_NOFEED"⟩,
  ⟨[67, 79, 68, 69], some "CODE"⟩,
  ⟨[67, 79, 68, 69, 45, 83, 69, 84], some "CODE_SET"⟩,
  ⟨[67, 79, 76], some "COLUMN"⟩,
  ⟨[67, 79, 76, 76, 65, 84, 73, 78, 71], some "COLLATING"⟩,
  ⟨[67, 79, 76, 83], some "COLUMNS"⟩,
  ⟨[67, 79, 76, 85, 77, 78], some "COLUMN"⟩,
  ⟨[67, 79, 76, 85, 77, 78, 83], some "COLUMNS"⟩,
  ⟨[67, 79, 77, 77, 65], some "COMMA"⟩,
  ⟨[67, 79, 77, 77, 65, 78, 68, 45, 76, 73, 78, 69], some "COMMAND_LINE"⟩,
  ⟨[67, 79, 77, 77, 73, 84], some "COMMIT"⟩,
  ⟨[67, 79, 77, 77, 73, 84, 77, 69, 78, 84, 45, 67, 79, 78, 84, 82, 79, 76], some "COMMITMENT_CONTROL"⟩,
  ⟨[67, 79, 77, 77, 79, 78], some "COMMON"⟩,
  ⟨[67, 79, 77, 77, 85, 78, 73, 67, 65, 84, 73, 79, 78], none⟩,
  ⟨[67, 79, 77, 80], some "COMP"⟩,
  ⟨[67, 79, 77, 80, 45, 49], some "COMP_1"⟩,
  ⟨[67, 79, 77, 80, 45, 50], some "COMP_2"⟩,
  ⟨[67, 79, 77, 80, 45, 51], some "COMP_3"⟩,
  ⟨[67, 79, 77, 80, 45, 52], some "COMP_4"⟩,
  ⟨[67, 79, 77, 80, 45, 53], some "COMP_5"⟩,
  ⟨[67, 79, 77, 80, 45, 88], some "COMP_X"⟩,
  ⟨[67, 79, 77, 80, 85, 84, 65, 84, 73, 79, 78, 65, 76], some "COMP"⟩,
  ⟨[67, 79, 77, 80, 85, 84, 65, 84, 73, 79, 78, 65, 76, 45, 49], some "COMP_1"⟩,
  ⟨[67, 79, 77, 80, 85, 84, 65, 84, 73, 79, 78, 65, 76, 45, 50], some "COMP_2"⟩,
  ⟨[67, 79, 77, 80, 85, 84, 65, 84, 73, 79, 78, 65, 76, 45, 51], some "COMP_3"⟩,
  ⟨[67, 79, 77, 80, 85, 84, 65, 84, 73, 79, 78, 65, 76, 45, 52], some "COMP_4"⟩,
  ⟨[67, 79, 77, 80, 85, 84, 65, 84, 73, 79, 78, 65, 76, 45, 53], some "COMP_5"⟩,
  ⟨[67, 79, 77, 80, 85, 84, 65, 84, 73, 79, 78, 65, 76, 45, 88], some "COMP_X"⟩,
  ⟨[67, 79, 77, 80, 85, 84, 69], some "COMPUTE"⟩,
  ⟨[67, 79, 78, 68, 73, 84, 73, 79, 78], none⟩,
  ⟨[67, 79, 78, 70, 73, 71, 85, 82, 65, 84, 73, 79, 78], some "CONFIGURATION"⟩,
  ⟨[67, 79, 78, 83, 84, 65, 78, 84], some "CONSTANT"⟩,
  ⟨[67, 79, 78, 84, 65, 73, 78, 83], some "CONTAINS"⟩,
  ⟨[67, 79, 78, 84, 69, 78, 84], some "CONTENT"⟩,
  ⟨[67, 79, 78, 84, 73, 78, 85, 69], some "CONTINUE"⟩,
  ⟨[67, 79, 78, 84, 82, 79, 76], some "CONTROL"⟩,
  ⟨[67, 79, 78, 84, 82, 79, 76, 83], some "CONTROL"⟩,
  ⟨[67, 79, 78, 86, 69, 82, 84, 73, 78, 71], some "CONVERTING"⟩,
  ⟨[67, 79, 80, 89], some "0"⟩,
  ⟨[67, 79, 82, 69, 45, 73, 78, 68, 69, 88], some "CORE_INDEX"⟩,
  ⟨[67, 79, 82, 82], some "CORRESPONDING"⟩,
  ⟨[67, 79, 82, 82, 69, 83, 80, 79, 78, 68, 73, 78, 71], some "CORRESPONDING"⟩,
  ⟨[67, 79, 85, 78, 84], some "COUNT"⟩,
  ⟨[67, 82, 84], some "CRT"⟩,
  ⟨[67, 85, 82, 82, 69, 78, 67, 89], some "CURRENCY"⟩,
  ⟨[67, 85, 82, 83, 79, 82], some "CURSOR"⟩,
  ⟨[67, 89, 67, 76, 69], some "CYCLE"⟩,
  ⟨[67, 89, 76, 45, 79, 86, 69, 82, 70, 76, 79, 87], some "CYL_OVERFLOW"⟩,
  ⟨[68, 65, 84, 65], some "DATA"⟩,
  ⟨[68, 65, 84, 65, 45, 80, 79, 73, 78, 84, 69, 82], none⟩,
  ⟨[68, 65, 84, 69], some "DATE"⟩,
  ⟨[68, 65, 89], some "DAY"⟩,
  ⟨[68, 65, 89, 45, 79, 70, 45, 87, 69, 69, 75], some "DAY_OF_WEEK"⟩,
  ⟨[68, 69], some "DETAIL"⟩,
  ⟨[68, 69, 66, 85, 71, 71, 73, 78, 71], some "DEBUGGING"⟩,
  ⟨[68, 69, 67, 73, 77, 65, 76, 45, 80, 79, 73, 78, 84], some "DECIMAL_POINT"⟩,
  ⟨[68, 69, 67, 76, 65, 82, 65, 84, 73, 86, 69, 83], some "DECLARATIVES"⟩,
  ⟨[68, 69, 70, 65, 85, 76, 84], some "DEFAULT"⟩,
  ⟨[68, 69, 76, 69, 84, 69], some "DELETE"⟩,
  ⟨[68, 69, 76, 73, 77, 73, 84, 69, 68], some "DELIMITED"⟩,
  ⟨[68, 69, 76, 73, 77, 73, 84, 69, 82], some "DELIMITER"⟩,
  ⟨[68, 69, 80, 69, 78, 68, 73, 78, 71], some "DEPENDING"⟩,
  ⟨[68, 69, 83, 67, 69, 78, 68, 73, 78, 71], some "DESCENDING"⟩,
  ⟨[68, 69, 83, 84, 73, 78, 65, 84, 73, 79, 78], none⟩,
  ⟨[68, 69, 84, 65, 73, 76], some "DETAIL"⟩,
  ⟨[68, 73, 83, 65, 66, 76, 69], none⟩,
  ⟨[68, 73, 83, 75], some "DISK"⟩,
  ⟨[68, 73, 83, 80, 76, 65, 89], some "DISPLAY"⟩,
  ⟨[68, 73, 86, 73, 68, 69], some "DIVIDE"⟩,
  ⟨[68, 73, 86, 73, 83, 73, 79, 78], some "DIVISION"⟩,
  ⟨[68, 79, 87, 78], some "DOWN"⟩,
  ⟨[68, 85, 80, 76, 73, 67, 65, 84, 69, 83], some "DUPLICATES"⟩,
  ⟨[68, 89, 78, 65, 77, 73, 67], some "DYNAMIC"⟩,
  ⟨[69, 66, 67, 68, 73, 67], some "EBCDIC"⟩,
  ⟨[69, 67], none⟩,
  ⟨[69, 71, 73], none⟩,
  ⟨[69, 76, 83, 69], some "ELSE"⟩,
  ⟨[69, 77, 73], none⟩,
  ⟨[69, 78, 65, 66, 76, 69], none⟩,
  ⟨[69, 78, 68], some "END"⟩,
  ⟨[69, 78, 68, 45, 65, 67, 67, 69, 80, 84], some "END_ACCEPT"⟩,
  ⟨[69, 78, 68, 45, 65, 68, 68], some "END_ADD"⟩,
  ⟨[69, 78, 68, 45, 67, 65, 76, 76], some "END_CALL"⟩,
  ⟨[69, 78, 68, 45, 67, 79, 77, 80, 85, 84, 69], some "END_COMPUTE"⟩,
  ⟨[69, 78, 68, 45, 68, 69, 76, 69, 84, 69], some "END_DELETE"⟩,
  ⟨[69, 78, 68, 45, 68, 73, 83, 80, 76, 65, 89], some "END_DISPLAY"⟩,
  ⟨[69, 78, 68, 45, 68, 73, 86, 73, 68, 69], some "END_DIVIDE"⟩,
  ⟨[69, 78, 68, 45, 69, 86, 65, 76, 85, 65, 84, 69], some "END_EVALUATE"⟩,
  ⟨[69, 78, 68, 45, 73, 70], some "END_IF"⟩,
  ⟨[69, 78, 68, 45, 77, 85, 76, 84, 73, 80, 76, 89], some "END_MULTIPLY"⟩,
  ⟨[69, 78, 68, 45, 79, 70, 45, 80, 65, 71, 69], some "EOP"⟩,
  ⟨[69, 78, 68, 45, 80, 69, 82, 70, 79, 82, 77], some "END_PERFORM"⟩,
  ⟨[69, 78, 68, 45, 82, 69, 65, 68], some "END_READ"⟩,
  ⟨[69, 78, 68, 45, 82, 69, 67, 69, 73, 86, 69], none⟩,
  ⟨[69, 78, 68, 45, 82, 69, 84, 85, 82, 78], some "END_RETURN"⟩,
  ⟨[69, 78, 68, 45, 82, 69, 87, 82, 73, 84, 69], some "END_REWRITE"⟩,
  ⟨[69, 78, 68, 45, 83, 69, 65, 82, 67, 72], some "END_SEARCH"⟩,
  ⟨[69, 78, 68, 45, 83, 84, 65, 82, 84], some "END_START"⟩,
  ⟨[69, 78, 68, 45, 83, 84, 82, 73, 78, 71], some "END_STRING"⟩,
  ⟨[69, 78, 68, 45, 83, 85, 66, 84, 82, 65, 67, 84], some "END_SUBTRACT"⟩,
  ⟨[69, 78, 68, 45, 85, 78, 83, 84, 82, 73, 78, 71], some "END_UNSTRING"⟩,
  ⟨[69, 78, 68, 45, 87, 82, 73, 84, 69], some "END_WRITE"⟩,
  ⟨[69, 78, 84, 82, 89], some "ENTRY"⟩,
  ⟨[69, 78, 84, 82, 89, 45, 67, 79, 78, 86, 69, 78, 84, 73, 79, 78], none⟩,
  ⟨[69, 78, 86, 73, 82, 79, 78, 77, 69, 78, 84], some "ENVIRONMENT"⟩,
  ⟨[69, 78, 86, 73, 82, 79, 78, 77, 69, 78, 84, 45, 78, 65, 77, 69], some "ENVIRONMENT_NAME"⟩,
  ⟨[69, 78, 86, 73, 82, 79, 78, 77, 69, 78, 84, 45, 86, 65, 76, 85, 69], some "ENVIRONMENT_VALUE"⟩,
  ⟨[69, 79], none⟩,
  ⟨[69, 79, 76], some "EOL"⟩,
  ⟨[69, 79, 80], some "EOP"⟩,
  ⟨[69, 79, 83], some "EOS"⟩,
  ⟨[69, 81, 85, 65, 76], some "EQUAL"⟩,
  ⟨[69, 81, 85, 65, 76, 83], some "EQUALS"⟩,
  ⟨[69, 82, 65, 83, 69], some "ERASE"⟩,
  ⟨[69, 82, 82, 79, 82], some "ERROR"⟩,
  ⟨[69, 83, 67, 65, 80, 69], some "ESCAPE"⟩,
  ⟨[69, 83, 73], none⟩,
  ⟨[69, 86, 65, 76, 85, 65, 84, 69], some "EVALUATE"⟩,
  ⟨[69, 88, 67, 69, 80, 84, 73, 79, 78], some "EXCEPTION"⟩,
  ⟨[69, 88, 67, 69, 80, 84, 73, 79, 78, 45, 79, 66, 74, 69, 67, 84], none⟩,
  ⟨[69, 88, 67, 76, 85, 83, 73, 86, 69], some "EXCLUSIVE"⟩,
  ⟨[69, 88, 73, 84], some "EXIT"⟩,
  ⟨[69, 88, 80, 65, 78, 68, 83], none⟩,
  ⟨[69, 88, 84, 69, 78, 68], some "EXTEND"⟩,
  ⟨[69, 88, 84, 69, 82, 78, 65, 76], some "EXTERNAL"⟩,
  ⟨[70, 65, 67, 84, 79, 82, 89], none⟩,
  ⟨[70, 65, 76, 83, 69], some "TOK_FALSE"⟩,
  ⟨[70, 68], some "FD"⟩,
  ⟨[70, 73, 76, 69], some "TOK_FILE"⟩,
  ⟨[70, 73, 76, 69, 45, 67, 79, 78, 84, 82, 79, 76], some "FILE_CONTROL"⟩,
  ⟨[70, 73, 76, 69, 45, 73, 68], some "FILE_ID"⟩,
  ⟨[70, 73, 76, 76, 69, 82], some "FILLER"⟩,
  ⟨[70, 73, 78, 65, 76], some "FINAL"⟩,
  ⟨[70, 73, 82, 83, 84], some "FIRST"⟩,
  ⟨[70, 76, 79, 65, 84, 45, 66, 73, 78, 65, 82, 89, 45, 49, 54], none⟩,
  ⟨[70, 76, 79, 65, 84, 45, 66, 73, 78, 65, 82, 89, 45, 51, 52], none⟩,
  ⟨[70, 76, 79, 65, 84, 45, 66, 73, 78, 65, 82, 89, 45, 55], none⟩,
  ⟨[70, 76, 79, 65, 84, 45, 68, 69, 67, 73, 77, 65, 76, 45, 49, 54], none⟩,
  ⟨[70, 76, 79, 65, 84, 45, 68, 69, 67, 73, 77, 65, 76, 45, 51, 52], none⟩,
  ⟨[70, 76, 79, 65, 84, 45, 69, 88, 84, 69, 78, 68, 69, 68], none⟩,
  ⟨[70, 76, 79, 65, 84, 45, 76, 79, 78, 71], some "COMP_2"⟩,
  ⟨[70, 76, 79, 65, 84, 45, 83, 72, 79, 82, 84], some "COMP_1"⟩,
  ⟨[70, 79, 79, 84, 73, 78, 71], some "FOOTING"⟩,
  ⟨[70, 79, 82], some "FOR"⟩,
  ⟨[70, 79, 82, 69, 71, 82, 79, 85, 78, 68, 45, 67, 79, 76, 79, 82], some "FOREGROUND_COLOR"⟩,
  ⟨[70, 79, 82, 69, 86, 69, 82], some "FOREVER"⟩,
  ⟨[70, 79, 82, 77, 65, 84], none⟩,
  ⟨[70, 79, 82, 77, 83, 45, 79, 86, 69, 82, 76, 65, 89], some "FORMS_OVERLAY"⟩,
  ⟨[70, 82, 69, 69], some "FREE"⟩,
  ⟨[70, 82, 79, 77], some "FROM"⟩,
  ⟨[70, 85, 76, 76], some "FULL"⟩,
  ⟨[70, 85, 78, 67, 84, 73, 79, 78], some "FUNCTION"⟩,
  ⟨[70, 85, 78, 67, 84, 73, 79, 78, 45, 73, 68], some "FUNCTION_ID"⟩,
  ⟨[70, 85, 78, 67, 84, 73, 79, 78, 45, 80, 79, 73, 78, 84, 69, 82], none⟩,
  ⟨[71, 69, 78, 69, 82, 65, 84, 69], some "GENERATE"⟩,
  ⟨[71, 69, 84], none⟩,
  ⟨[71, 73, 86, 73, 78, 71], some "GIVING"⟩,
  ⟨[71, 76, 79, 66, 65, 76], some "GLOBAL"⟩,
  ⟨[71, 79], some "GO"⟩,
  ⟨[71, 79, 66, 65, 67, 75], some "GOBACK"⟩,
  ⟨[71, 82, 69, 65, 84, 69, 82], some "GREATER"⟩,
  ⟨[71, 82, 79, 85, 80], some "GROUP"⟩,
  ⟨[71, 82, 79, 85, 80, 45, 85, 83, 65, 71, 69], none⟩,
  ⟨[72, 69, 65, 68, 73, 78, 71], some "HEADING"⟩,
  ⟨[72, 73, 71, 72, 45, 86, 65, 76, 85, 69], some "HIGH_VALUE"⟩,
  ⟨[72, 73, 71, 72, 45, 86, 65, 76, 85, 69, 83], some "HIGH_VALUE"⟩,
  ⟨[72, 73, 71, 72, 76, 73, 71, 72, 84], some "HIGHLIGHT"⟩,
  ⟨[73, 45, 79], some "I_O"⟩,
  ⟨[73, 45, 79, 45, 67, 79, 78, 84, 82, 79, 76], some "I_O_CONTROL"⟩,
  ⟨[73, 68], some "IDENTIFICATION"⟩,
  ⟨[73, 68, 69, 78, 84, 73, 70, 73, 67, 65, 84, 73, 79, 78], some "IDENTIFICATION"⟩,
  ⟨[73, 70], some "IF"⟩,
  ⟨[73, 71, 78, 79, 82, 69], some "IGNORE"⟩,
  ⟨[73, 71, 78, 79, 82, 73, 78, 71], some "IGNORING"⟩,
  ⟨[73, 77, 80, 76, 69, 77, 69, 78, 84, 83], none⟩,
  ⟨[73, 78], some "IN"⟩,
  ⟨[73, 78, 68, 69, 88], some "INDEX"⟩,
  ⟨[73, 78, 68, 69, 88, 69, 68], some "INDEXED"⟩,
  ⟨[73, 78, 68, 73, 67, 65, 84, 69], some "INDICATE"⟩,
  ⟨[73, 78, 70, 73, 78, 73, 84, 89], none⟩,
  ⟨[73, 78, 72, 69, 82, 73, 84, 83], none⟩,
  ⟨[73, 78, 73, 84, 73, 65, 76], some "TOK_INITIAL"⟩,
  ⟨[73, 78, 73, 84, 73, 65, 76, 73, 90, 69], some "INITIALIZE"⟩,
  ⟨[73, 78, 73, 84, 73, 65, 76, 73, 90, 69, 68], some "INITIALIZED"⟩,
  ⟨[73, 78, 73, 84, 73, 65, 84, 69], some "INITIATE"⟩,
  ⟨[73, 78, 80, 85, 84], some "INPUT"⟩,
  ⟨[73, 78, 80, 85, 84, 45, 79, 85, 84, 80, 85, 84], some "INPUT_OUTPUT"⟩,
  ⟨[73, 78, 83, 80, 69, 67, 84], some "INSPECT"⟩,
  ⟨[73, 78, 84, 69, 82, 70, 65, 67, 69], none⟩,
  ⟨[73, 78, 84, 69, 82, 70, 65, 67, 69, 45, 73, 68], none⟩,
  ⟨[73, 78, 84, 79], some "INTO"⟩,
  ⟨[73, 78, 84, 82, 73, 78, 83, 73, 67], some "INTRINSIC"⟩,
  ⟨[73, 78, 86, 65, 76, 73, 68], some "INVALID"⟩,
  ⟨[73, 78, 86, 79, 75, 69], none⟩,
  ⟨[73, 83], some "IS"⟩,
  ⟨[74, 85, 83, 84], some "JUSTIFIED"⟩,
  ⟨[74, 85, 83, 84, 73, 70, 73, 69, 68], some "JUSTIFIED"⟩,
  ⟨[75, 69, 89], some "KEY"⟩,
  ⟨[76, 65, 66, 69, 76], some "LABEL"⟩,
  ⟨[76, 65, 83, 84], some "LAST"⟩,
  ⟨[76, 67, 95, 65, 76, 76], none⟩,
  ⟨[76, 67, 95, 67, 79, 76, 76, 65, 84, 69], none⟩,
  ⟨[76, 67, 95, 67, 84, 89, 80, 69], none⟩,
  ⟨[76, 67, 95, 77, 69, 83, 83, 65, 71, 69, 83], none⟩,
  ⟨[76, 67, 95, 77, 79, 78, 69, 84, 65, 82, 89], none⟩,
  ⟨[76, 67, 95, 78, 85, 77, 69, 82, 73, 67], none⟩,
  ⟨[76, 67, 95, 84, 73, 77, 69], none⟩,
  ⟨[76, 69, 65, 68, 73, 78, 71], some "LEADING"⟩,
  ⟨[76, 69, 70, 84], some "LEFT"⟩,
  ⟨[76, 69, 78, 71, 84, 72], some "LENGTH"⟩,
  ⟨[76, 69, 83, 83], some "LESS"⟩,
  ⟨[76, 73, 77, 73, 84], some "LIMIT"⟩,
  ⟨[76, 73, 77, 73, 84, 83], some "LIMITS"⟩,
  ⟨[76, 73, 78, 65, 71, 69], some "LINAGE"⟩,
  ⟨[76, 73, 78, 65, 71, 69, 45, 67, 79, 85, 78, 84, 69, 82], some "LINAGE_COUNTER"⟩,
  ⟨[76, 73, 78, 69], some "LINE"⟩,
  ⟨[76, 73, 78, 69, 45, 67, 79, 85, 78, 84, 69, 82], none⟩,
  ⟨[76, 73, 78, 69, 83], some "LINES"⟩,
  ⟨[76, 73, 78, 75, 65, 71, 69], some "LINKAGE"⟩,
  ⟨[76, 79, 67, 65, 76, 45, 83, 84, 79, 82, 65, 71, 69], some "LOCAL_STORAGE"⟩,
  ⟨[76, 79, 67, 65, 76, 69], some "LOCALE"⟩,
  ⟨[76, 79, 67, 75], some "LOCK"⟩,
  ⟨[76, 79, 87, 45, 86, 65, 76, 85, 69], some "LOW_VALUE"⟩,
  ⟨[76, 79, 87, 45, 86, 65, 76, 85, 69, 83], some "LOW_VALUE"⟩,
  ⟨[76, 79, 87, 76, 73, 71, 72, 84], some "LOWLIGHT"⟩,
  ⟨[77, 65, 78, 85, 65, 76], some "MANUAL"⟩,
  ⟨[77, 69, 77, 79, 82, 89], some "MEMORY"⟩,
  ⟨[77, 69, 82, 71, 69], some "MERGE"⟩,
  ⟨[77, 69, 83, 83, 65, 71, 69], none⟩,
  ⟨[77, 69, 84, 72, 79, 68], none⟩,
  ⟨[77, 69, 84, 72, 79, 68, 45, 73, 68], none⟩,
  ⟨[77, 73, 78, 85, 83], some "MINUS"⟩,
  ⟨[77, 79, 68, 69], some "MODE"⟩,
  ⟨[77, 79, 86, 69], some "MOVE"⟩,
  ⟨[77, 85, 76, 84, 73, 80, 76, 69], some "MULTIPLE"⟩,
  ⟨[77, 85, 76, 84, 73, 80, 76, 89], some "MULTIPLY"⟩,
  ⟨[78, 65, 84, 73, 79, 78, 65, 76], some "NATIONAL"⟩,
  ⟨[78, 65, 84, 73, 79, 78, 65, 76, 45, 69, 68, 73, 84, 69, 68], some "NATIONAL_EDITED"⟩,
  ⟨[78, 65, 84, 73, 86, 69], some "NATIVE"⟩,
  ⟨[78, 69, 71, 65, 84, 73, 86, 69], some "NEGATIVE"⟩,
  ⟨[78, 69, 83, 84, 69, 68], none⟩,
  ⟨[78, 69, 88, 84], some "NEXT"⟩,
  ⟨[78, 79], some "NO"⟩,
  ⟨[78, 79, 77, 73, 78, 65, 76], some "NOMINAL"⟩,
  ⟨[78, 79, 78, 69], none⟩,
  ⟨[78, 79, 82, 77, 65, 76], none⟩,
  ⟨[78, 79, 84], some "NOT"⟩,
  ⟨[78, 85, 76, 76], some "TOK_NULL"⟩,
  ⟨[78, 85, 76, 76, 83], some "TOK_NULL"⟩,
  ⟨[78, 85, 77, 66, 69, 82], some "NUMBER"⟩,
  ⟨[78, 85, 77, 66, 69, 82, 83], some "NUMBER"⟩,
  ⟨[78, 85, 77, 69, 82, 73, 67], some "NUMERIC"⟩,
  ⟨[78, 85, 77, 69, 82, 73, 67, 45, 69, 68, 73, 84, 69, 68], some "NUMERIC_EDITED"⟩,
  ⟨[79, 66, 74, 69, 67, 84], none⟩,
  ⟨[79, 66, 74, 69, 67, 84, 45, 67, 79, 77, 80, 85, 84, 69, 82], some "OBJECT_COMPUTER"⟩,
  ⟨[79, 66, 74, 69, 67, 84, 45, 82, 69, 70, 69, 82, 69, 78, 67, 69], none⟩,
  ⟨[79, 67, 67, 85, 82, 83], some "OCCURS"⟩,
  ⟨[79, 70], some "OF"⟩,
  ⟨[79, 70, 70], some "OFF"⟩,
  ⟨[79, 77, 73, 84, 84, 69, 68], some "OMITTED"⟩,
  ⟨[79, 78], some "ON"⟩,
  ⟨[79, 78, 76, 89], some "ONLY"⟩,
  ⟨[79, 80, 69, 78], some "OPEN"⟩,
  ⟨[79, 80, 84, 73, 79, 78, 65, 76], some "OPTIONAL"⟩,
  ⟨[79, 80, 84, 73, 79, 78, 83], none⟩,
  ⟨[79, 82], some "OR"⟩,
  ⟨[79, 82, 68, 69, 82], some "ORDER"⟩,
  ⟨[79, 82, 71, 65, 78, 73, 90, 65, 84, 73, 79, 78], some "ORGANIZATION"⟩,
  ⟨[79, 84, 72, 69, 82], some "OTHER"⟩,
  ⟨[79, 85, 84, 80, 85, 84], some "OUTPUT"⟩,
  ⟨[79, 86, 69, 82, 70, 76, 79, 87], some "OVERFLOW"⟩,
  ⟨[79, 86, 69, 82, 76, 73, 78, 69], some "OVERLINE"⟩,
  ⟨[79, 86, 69, 82, 82, 73, 68, 69], none⟩,
  ⟨[80, 65, 67, 75, 69, 68, 45, 68, 69, 67, 73, 77, 65, 76], some "PACKED_DECIMAL"⟩,
  ⟨[80, 65, 68, 68, 73, 78, 71], some "PADDING"⟩,
  ⟨[80, 65, 71, 69], some "PAGE"⟩,
  ⟨[80, 65, 71, 69, 45, 67, 79, 85, 78, 84, 69, 82], none⟩,
  ⟨[80, 65, 82, 65, 71, 82, 65, 80, 72], some "PARAGRAPH"⟩,
  ⟨[80, 69, 82, 70, 79, 82, 77], some "PERFORM"⟩,
  ⟨[80, 70], some "PAGE_FOOTING"⟩,
  ⟨[80, 72], some "PAGE_HEADING"⟩,
  ⟨[80, 73, 67], some "0"⟩,
  ⟨[80, 73, 67, 84, 85, 82, 69], some "0"⟩,
  ⟨[80, 76, 85, 83], some "PLUS"⟩,
  ⟨[80, 79, 73, 78, 84, 69, 82], some "POINTER"⟩,
  ⟨[80, 79, 83, 73, 84, 73, 79, 78], some "POSITION"⟩,
  ⟨[80, 79, 83, 73, 84, 73, 86, 69], some "POSITIVE"⟩,
  ⟨[80, 82, 69, 83, 69, 78, 84], some "PRESENT"⟩,
  ⟨[80, 82, 69, 86, 73, 79, 85, 83], some "PREVIOUS"⟩,
  ⟨[80, 82, 73, 78, 84, 69, 82], some "PRINTER"⟩,
  ⟨[80, 82, 73, 78, 84, 73, 78, 71], some "PRINTING"⟩,
  ⟨[80, 82, 79, 67, 69, 68, 85, 82, 69], some "PROCEDURE"⟩,
  ⟨[80, 82, 79, 67, 69, 68, 85, 82, 69, 45, 80, 79, 73, 78, 84, 69, 82], some "PROGRAM_POINTER"⟩,
  ⟨[80, 82, 79, 67, 69, 68, 85, 82, 69, 83], some "PROCEDURES"⟩,
  ⟨[80, 82, 79, 67, 69, 69, 68], some "PROCEED"⟩,
  ⟨[80, 82, 79, 71, 82, 65, 77], some "PROGRAM"⟩,
  ⟨[80, 82, 79, 71, 82, 65, 77, 45, 73, 68], some "PROGRAM_ID"⟩,
  ⟨[80, 82, 79, 71, 82, 65, 77, 45, 80, 79, 73, 78, 84, 69, 82], some "PROGRAM_POINTER"⟩,
  ⟨[80, 82, 79, 77, 80, 84], some "PROMPT"⟩,
  ⟨[80, 82, 79, 80, 69, 82, 84, 89], none⟩,
  ⟨[80, 82, 79, 84, 79, 84, 89, 80, 69], none⟩,
  ⟨[80, 85, 82, 71, 69], none⟩,
  ⟨[81, 85, 69, 85, 69], none⟩,
  ⟨[81, 85, 79, 84, 69], some "QUOTE"⟩,
  ⟨[81, 85, 79, 84, 69, 83], some "QUOTE"⟩,
  ⟨[82, 65, 73, 83, 69], none⟩,
  ⟨[82, 65, 73, 83, 73, 78, 71], none⟩,
  ⟨[82, 65, 78, 68, 79, 77], some "RANDOM"⟩,
  ⟨[82, 68], some "RD"⟩,
  ⟨[82, 69, 65, 68], some "READ"⟩,
  ⟨[82, 69, 67, 69, 73, 86, 69], none⟩,
  ⟨[82, 69, 67, 79, 82, 68], some "RECORD"⟩,
  ⟨[82, 69, 67, 79, 82, 68, 73, 78, 71], some "RECORDING"⟩,
  ⟨[82, 69, 67, 79, 82, 68, 83], some "RECORDS"⟩,
  ⟨[82, 69, 67, 85, 82, 83, 73, 86, 69], some "RECURSIVE"⟩,
  ⟨[82, 69, 68, 69, 70, 73, 78, 69, 83], some "REDEFINES"⟩,
  ⟨[82, 69, 69, 76], some "REEL"⟩,
  ⟨[82, 69, 70, 69, 82, 69, 78, 67, 69], some "REFERENCE"⟩,
  ⟨[82, 69, 76, 65, 84, 73, 79, 78], none⟩,
  ⟨[82, 69, 76, 65, 84, 73, 86, 69], some "RELATIVE"⟩,
  ⟨[82, 69, 76, 69, 65, 83, 69], some "RELEASE"⟩,
  ⟨[82, 69, 77, 65, 73, 78, 68, 69, 82], some "REMAINDER"⟩,
  ⟨[82, 69, 77, 79, 86, 65, 76], some "REMOVAL"⟩,
  ⟨[82, 69, 78, 65, 77, 69, 83], some "RENAMES"⟩,
  ⟨[82, 69, 80, 76, 65, 67, 69], none⟩,
  ⟨[82, 69, 80, 76, 65, 67, 73, 78, 71], some "REPLACING"⟩,
  ⟨[82, 69, 80, 79, 82, 84], some "REPORT"⟩,
  ⟨[82, 69, 80, 79, 82, 84, 73, 78, 71], some "REPORTING"⟩,
  ⟨[82, 69, 80, 79, 82, 84, 83], some "REPORTS"⟩,
  ⟨[82, 69, 80, 79, 83, 73, 84, 79, 82, 89], some "REPOSITORY"⟩,
  ⟨[82, 69, 80, 82, 69, 83, 69, 78, 84, 83, 45, 78, 79, 84, 45, 65, 45, 78, 85, 77, 66, 69, 82], none⟩,
  ⟨[82, 69, 81, 85, 73, 82, 69, 68], some "REQUIRED"⟩,
  ⟨[82, 69, 83, 69, 82, 86, 69], some "RESERVE"⟩,
  ⟨[82, 69, 83, 69, 84], none⟩,
  ⟨[82, 69, 83, 85, 77, 69], none⟩,
  ⟨[82, 69, 84, 82, 89], none⟩,
  ⟨[82, 69, 84, 85, 82, 78], some "RETURN"⟩,
  ⟨[82, 69, 84, 85, 82, 78, 73, 78, 71], some "RETURNING"⟩,
  ⟨[82, 69, 86, 69, 82, 83, 69, 45, 86, 73, 68, 69, 79], some "REVERSE_VIDEO"⟩,
  ⟨[82, 69, 87, 73, 78, 68], some "REWIND"⟩,
  ⟨[82, 69, 87, 82, 73, 84, 69], some "REWRITE"⟩,
  ⟨[82, 70], some "REPORT_FOOTING"⟩,
  ⟨[82, 72], some "REPORT_HEADING"⟩,
  ⟨[82, 73, 71, 72, 84], some "RIGHT"⟩,
  ⟨[82, 79, 76, 76, 66, 65, 67, 75], some "ROLLBACK"⟩,
  ⟨[82, 79, 85, 78, 68, 69, 68], some "ROUNDED"⟩,
  ⟨[82, 85, 78], some "RUN"⟩,
  ⟨[83, 65, 77, 69], some "SAME"⟩,
  ⟨[83, 67, 82, 69, 69, 78], some "SCREEN"⟩,
  ⟨[83, 67, 82, 79, 76, 76], some "SCROLL"⟩,
  ⟨[83, 68], some "SD"⟩,
  ⟨[83, 69, 65, 82, 67, 72], some "SEARCH"⟩,
  ⟨[83, 69, 67, 79, 78, 68, 83], none⟩,
  ⟨[83, 69, 67, 84, 73, 79, 78], some "SECTION"⟩,
  ⟨[83, 69, 67, 85, 82, 69], some "SECURE"⟩,
  ⟨[83, 69, 71, 77, 69, 78, 84], none⟩,
  ⟨[83, 69, 71, 77, 69, 78, 84, 45, 76, 73, 77, 73, 84], some "SEGMENT_LIMIT"⟩,
  ⟨[83, 69, 76, 69, 67, 84], some "SELECT"⟩,
  ⟨[83, 69, 76, 70], none⟩,
  ⟨[83, 69, 78, 68], none⟩,
  ⟨[83, 69, 78, 84, 69, 78, 67, 69], some "SENTENCE"⟩,
  ⟨[83, 69, 80, 65, 82, 65, 84, 69], some "SEPARATE"⟩,
  ⟨[83, 69, 81, 85, 69, 78, 67, 69], some "SEQUENCE"⟩,
  ⟨[83, 69, 81, 85, 69, 78, 84, 73, 65, 76], some "SEQUENTIAL"⟩,
  ⟨[83, 69, 84], some "SET"⟩,
  ⟨[83, 72, 65, 82, 73, 78, 71], some "SHARING"⟩,
  ⟨[83, 73, 71, 78], some "SIGN"⟩,
  ⟨[83, 73, 71, 78, 69, 68], some "SIGNED"⟩,
  ⟨[83, 73, 71, 78, 69, 68, 45, 73, 78, 84], some "SIGNED_INT"⟩,
  ⟨[83, 73, 71, 78, 69, 68, 45, 76, 79, 78, 71], some "SIGNED_LONG"⟩,
  ⟨[83, 73, 71, 78, 69, 68, 45, 83, 72, 79, 82, 84], some "SIGNED_SHORT"⟩,
  ⟨[83, 73, 90, 69], some "SIZE"⟩,
  ⟨[83, 79, 82, 84], some "SORT"⟩,
  ⟨[83, 79, 82, 84, 45, 77, 69, 82, 71, 69], some "SORT_MERGE"⟩,
  ⟨[83, 79, 85, 82, 67, 69], some "SOURCE"⟩,
  ⟨[83, 79, 85, 82, 67, 69, 45, 67, 79, 77, 80, 85, 84, 69, 82], some "SOURCE_COMPUTER"⟩,
  ⟨[83, 79, 85, 82, 67, 69, 83], none⟩,
  ⟨[83, 80, 65, 67, 69], some "SPACE"⟩,
  ⟨[83, 80, 65, 67, 69, 83], some "SPACE"⟩,
  ⟨[83, 80, 69, 67, 73, 65, 76, 45, 78, 65, 77, 69, 83], some "SPECIAL_NAMES"⟩,
  ⟨[83, 84, 65, 78, 68, 65, 82, 68], some "STANDARD"⟩,
  ⟨[83, 84, 65, 78, 68, 65, 82, 68, 45, 49], some "STANDARD_1"⟩,
  ⟨[83, 84, 65, 78, 68, 65, 82, 68, 45, 50], some "STANDARD_2"⟩,
  ⟨[83, 84, 65, 82, 84], some "START"⟩,
  ⟨[83, 84, 65, 84, 69, 77, 69, 78, 84], none⟩,
  ⟨[83, 84, 65, 84, 85, 83], some "STATUS"⟩,
  ⟨[83, 84, 69, 80], none⟩,
  ⟨[83, 84, 79, 80], some "STOP"⟩,
  ⟨[83, 84, 82, 73, 78, 71], some "STRING"⟩,
  ⟨[83, 84, 82, 79, 78, 71], none⟩,
  ⟨[83, 85, 66, 45, 81, 85, 69, 85, 69, 45, 49], none⟩,
  ⟨[83, 85, 66, 45, 81, 85, 69, 85, 69, 45, 50], none⟩,
  ⟨[83, 85, 66, 45, 81, 85, 69, 85, 69, 45, 51], none⟩,
  ⟨[83, 85, 66, 84, 82, 65, 67, 84], some "SUBTRACT"⟩,
  ⟨[83, 85, 77], some "SUM"⟩,
  ⟨[83, 85, 80, 69, 82], none⟩,
  ⟨[83, 85, 80, 80, 82, 69, 83, 83], some "SUPPRESS"⟩,
  ⟨[83, 89, 77, 66, 79, 76], none⟩,
  ⟨[83, 89, 77, 66, 79, 76, 73, 67], some "SYMBOLIC"⟩,
  ⟨[83, 89, 78, 67], some "SYNCHRONIZED"⟩,
  ⟨[83, 89, 78, 67, 72, 82, 79, 78, 73, 90, 69, 68], some "SYNCHRONIZED"⟩,
  ⟨[83, 89, 83, 84, 69, 77, 45, 68, 69, 70, 65, 85, 76, 84], none⟩,
  ⟨[84, 65, 66, 76, 69], none⟩,
  ⟨[84, 65, 76, 76, 89, 73, 78, 71], some "TALLYING"⟩,
  ⟨[84, 65, 80, 69], some "TAPE"⟩,
  ⟨[84, 69, 82, 77, 73, 78, 65, 76], none⟩,
  ⟨[84, 69, 82, 77, 73, 78, 65, 84, 69], some "TERMINATE"⟩,
  ⟨[84, 69, 83, 84], some "TEST"⟩,
  ⟨[84, 69, 88, 84], none⟩,
  ⟨[84, 72, 65, 78], some "THAN"⟩,
  ⟨[84, 72, 69, 78], some "THEN"⟩,
  ⟨[84, 72, 82, 79, 85, 71, 72], some "THRU"⟩,
  ⟨[84, 72, 82, 85], some "THRU"⟩,
  ⟨[84, 73, 77, 69], some "TIME"⟩,
  ⟨[84, 73, 77, 69, 83], some "TIMES"⟩,
  ⟨[84, 79], some "TO"⟩,
  ⟨[84, 79, 80], some "TOP"⟩,
  ⟨[84, 82, 65, 67, 75, 83], some "TRACKS"⟩,
  ⟨[84, 82, 65, 73, 76, 73, 78, 71], some "TRAILING"⟩,
  ⟨[84, 82, 65, 78, 83, 70, 79, 82, 77], some "TRANSFORM"⟩,
  ⟨[84, 82, 85, 69], some "TOK_TRUE"⟩,
  ⟨[84, 89, 80, 69], some "TYPE"⟩,
  ⟨[84, 89, 80, 69, 68, 69, 70], none⟩,
  ⟨[85, 67, 83, 45, 52], none⟩,
  ⟨[85, 78, 68, 69, 82, 76, 73, 78, 69], some "UNDERLINE"⟩,
  ⟨[85, 78, 73, 84], some "UNIT"⟩,
  ⟨[85, 78, 73, 86, 69, 82, 83, 65, 76], none⟩,
  ⟨[85, 78, 76, 79, 67, 75], some "UNLOCK"⟩,
  ⟨[85, 78, 83, 73, 71, 78, 69, 68], some "UNSIGNED"⟩,
  ⟨[85, 78, 83, 73, 71, 78, 69, 68, 45, 73, 78, 84], some "UNSIGNED_INT"⟩,
  ⟨[85, 78, 83, 73, 71, 78, 69, 68, 45, 76, 79, 78, 71], some "UNSIGNED_LONG"⟩,
  ⟨[85, 78, 83, 73, 71, 78, 69, 68, 45, 83, 72, 79, 82, 84], some "UNSIGNED_SHORT"⟩,
  ⟨[85, 78, 83, 84, 82, 73, 78, 71], some "UNSTRING"⟩,
  ⟨[85, 78, 84, 73, 76], some "UNTIL"⟩,
  ⟨[85, 80], some "UP"⟩,
  ⟨[85, 80, 68, 65, 84, 69], some "UPDATE"⟩,
  ⟨[85, 80, 79, 78], some "UPON"⟩,
  ⟨[85, 83, 65, 71, 69], some "USAGE"⟩,
  ⟨[85, 83, 69], some "USE"⟩,
  ⟨[85, 83, 69, 82, 45, 68, 69, 70, 65, 85, 76, 84], none⟩,
  ⟨[85, 83, 73, 78, 71], some "USING"⟩,
  ⟨[85, 84, 70, 45, 49, 54], none⟩,
  ⟨[85, 84, 70, 45, 56], none⟩,
  ⟨[86, 65, 76, 45, 83, 84, 65, 84, 85, 83], none⟩,
  ⟨[86, 65, 76, 73, 68], none⟩,
  ⟨[86, 65, 76, 73, 68, 65, 84, 69], none⟩,
  ⟨[86, 65, 76, 73, 68, 65, 84, 69, 45, 83, 84, 65, 84, 85, 83], none⟩,
  ⟨[86, 65, 76, 85, 69], some "VALUE"⟩,
  ⟨[86, 65, 76, 85, 69, 83], some "VALUE"⟩,
  ⟨[86, 65, 82, 89, 73, 78, 71], some "VARYING"⟩,
  ⟨[87, 65, 73, 84], some "WAIT"⟩,
  ⟨[87, 72, 69, 78], some "WHEN"⟩,
  ⟨[87, 73, 84, 72], some "WITH"⟩,
  ⟨[87, 79, 82, 68, 83], some "WORDS"⟩,
  ⟨[87, 79, 82, 75, 73, 78, 71, 45, 83, 84, 79, 82, 65, 71, 69], some "WORKING_STORAGE"⟩,
  ⟨[87, 82, 73, 84, 69], some "WRITE"⟩,
  ⟨[89, 89, 89, 89, 68, 68, 68], some "YYYYDDD"⟩,
  ⟨[89, 89, 89, 89, 77, 77, 68, 68], some "YYYYMMDD"⟩,
  ⟨[90, 69, 82, 79], some "ZERO"⟩,
  ⟨[90, 69, 82, 79, 69, 83], some "ZERO"⟩,
  ⟨[90, 69, 82, 79, 83], some "ZERO"⟩]

/-- /repo/cobc/reserved.c:640-905 `function_list`. -/
def functionList : List Function := [
  ⟨[65, 66, 83], 1, true⟩,
  ⟨[65, 67, 79, 83], 1, true⟩,
  ⟨[65, 78, 78, 85, 73, 84, 89], 2, true⟩,
  ⟨[65, 83, 73, 78], 1, true⟩,
  ⟨[65, 84, 65, 78], 1, true⟩,
  ⟨[66, 79, 79, 76, 69, 65, 78, 45, 79, 70, 45, 73, 78, 84, 69, 71, 69, 82], 2, false⟩,
  ⟨[66, 89, 84, 69, 45, 76, 69, 78, 71, 84, 72], 1, true⟩,
  ⟨[67, 72, 65, 82], 1, true⟩,
  ⟨[67, 72, 65, 82, 45, 78, 65, 84, 73, 79, 78, 65, 76], 1, false⟩,
  ⟨[67, 79, 77, 66, 73, 78, 69, 68, 45, 68, 65, 84, 69, 84, 73, 77, 69], 2, true⟩,
  ⟨[67, 79, 78, 67, 65, 84, 69, 78, 65, 84, 69], (-1), true⟩,
  ⟨[67, 79, 83], 1, true⟩,
  ⟨[67, 85, 82, 82, 69, 78, 84, 45, 68, 65, 84, 69], 0, true⟩,
  ⟨[68, 65, 84, 69, 45, 79, 70, 45, 73, 78, 84, 69, 71, 69, 82], 1, true⟩,
  ⟨[68, 65, 84, 69, 45, 84, 79, 45, 89, 89, 89, 89, 77, 77, 68, 68], (-1), true⟩,
  ⟨[68, 65, 89, 45, 79, 70, 45, 73, 78, 84, 69, 71, 69, 82], 1, true⟩,
  ⟨[68, 65, 89, 45, 84, 79, 45, 89, 89, 89, 89, 68, 68, 68], (-1), true⟩,
  ⟨[68, 73, 83, 80, 76, 65, 89, 45, 79, 70], (-1), false⟩,
  ⟨[69], 0, true⟩,
  ⟨[69, 88, 67, 69, 80, 84, 73, 79, 78, 45, 70, 73, 76, 69], 0, true⟩,
  ⟨[69, 88, 67, 69, 80, 84, 73, 79, 78, 45, 70, 73, 76, 69, 45, 78], 0, false⟩,
  ⟨[69, 88, 67, 69, 80, 84, 73, 79, 78, 45, 76, 79, 67, 65, 84, 73, 79, 78], 0, true⟩,
  ⟨[69, 88, 67, 69, 80, 84, 73, 79, 78, 45, 76, 79, 67, 65, 84, 73, 79, 78, 45, 78], 0, false⟩,
  ⟨[69, 88, 67, 69, 80, 84, 73, 79, 78, 45, 83, 84, 65, 84, 69, 77, 69, 78, 84], 0, true⟩,
  ⟨[69, 88, 67, 69, 80, 84, 73, 79, 78, 45, 83, 84, 65, 84, 85, 83], 0, true⟩,
  ⟨[69, 88, 80], 1, true⟩,
  ⟨[69, 88, 80, 49, 48], 1, true⟩,
  ⟨[70, 65, 67, 84, 79, 82, 73, 65, 76], 1, true⟩,
  ⟨[70, 82, 65, 67, 84, 73, 79, 78, 45, 80, 65, 82, 84], 1, true⟩,
  ⟨[72, 73, 71, 72, 69, 83, 84, 45, 65, 76, 71, 69, 66, 82, 65, 73, 67], 1, false⟩,
  ⟨[73, 78, 84, 69, 71, 69, 82], 1, true⟩,
  ⟨[73, 78, 84, 69, 71, 69, 82, 45, 79, 70, 45, 66, 79, 79, 76, 69, 65, 78], 1, false⟩,
  ⟨[73, 78, 84, 69, 71, 69, 82, 45, 79, 70, 45, 68, 65, 84, 69], 1, true⟩,
  ⟨[73, 78, 84, 69, 71, 69, 82, 45, 79, 70, 45, 68, 65, 89], 1, true⟩,
  ⟨[73, 78, 84, 69, 71, 69, 82, 45, 80, 65, 82, 84], 1, true⟩,
  ⟨[76, 69, 78, 71], 1, true⟩,
  ⟨[76, 69, 78, 71, 84, 72], 1, true⟩,
  ⟨[76, 69, 78, 71, 84, 72, 45, 65, 78], 1, true⟩,
  ⟨[76, 79, 67, 65, 76, 69, 45, 67, 79, 77, 80, 65, 82, 69], (-1), false⟩,
  ⟨[76, 79, 67, 65, 76, 69, 45, 68, 65, 84, 69], 2, true⟩,
  ⟨[76, 79, 67, 65, 76, 69, 45, 84, 73, 77, 69], 2, true⟩,
  ⟨[76, 79, 67, 65, 76, 69, 45, 84, 73, 77, 69, 45, 70, 82, 79, 77, 45, 83, 69, 67, 79, 78, 68, 83], 2, true⟩,
  ⟨[76, 79, 71], 1, true⟩,
  ⟨[76, 79, 71, 49, 48], 1, true⟩,
  ⟨[76, 79, 87, 69, 82, 45, 67, 65, 83, 69], 1, true⟩,
  ⟨[76, 79, 87, 69, 83, 84, 45, 65, 76, 71, 69, 66, 82, 65, 73, 67], 1, false⟩,
  ⟨[77, 65, 88], (-1), true⟩,
  ⟨[77, 69, 65, 78], (-1), true⟩,
  ⟨[77, 69, 68, 73, 65, 78], (-1), true⟩,
  ⟨[77, 73, 68, 82, 65, 78, 71, 69], (-1), true⟩,
  ⟨[77, 73, 78], (-1), true⟩,
  ⟨[77, 79, 68], 2, true⟩,
  ⟨[78, 65, 84, 73, 79, 78, 65, 76], 1, true⟩,
  ⟨[78, 65, 84, 73, 79, 78, 65, 76, 45, 79, 70], (-1), false⟩,
  ⟨[78, 85, 77, 86, 65, 76], 1, true⟩,
  ⟨[78, 85, 77, 86, 65, 76, 45, 67], 2, true⟩,
  ⟨[78, 85, 77, 86, 65, 76, 45, 70], 1, false⟩,
  ⟨[79, 82, 68], 1, true⟩,
  ⟨[79, 82, 68, 45, 77, 65, 88], (-1), true⟩,
  ⟨[79, 82, 68, 45, 77, 73, 78], (-1), true⟩,
  ⟨[80, 73], 0, true⟩,
  ⟨[80, 82, 69, 83, 69, 78, 84, 45, 86, 65, 76, 85, 69], (-1), true⟩,
  ⟨[82, 65, 78, 68, 79, 77], (-1), true⟩,
  ⟨[82, 65, 78, 71, 69], (-1), true⟩,
  ⟨[82, 69, 77], 2, true⟩,
  ⟨[82, 69, 86, 69, 82, 83, 69], 1, true⟩,
  ⟨[83, 69, 67, 79, 78, 68, 83, 45, 70, 82, 79, 77, 45, 70, 79, 82, 77, 65, 84, 84, 69, 68, 45, 84, 73, 77, 69], 2, true⟩,
  ⟨[83, 69, 67, 79, 78, 68, 83, 45, 80, 65, 83, 84, 45, 77, 73, 68, 78, 73, 71, 72, 84], 0, true⟩,
  ⟨[83, 73, 71, 78], 1, true⟩,
  ⟨[83, 73, 78], 1, true⟩,
  ⟨[83, 81, 82, 84], 1, true⟩,
  ⟨[83, 84, 65, 78, 68, 65, 82, 68, 45, 67, 79, 77, 80, 65, 82, 69], (-1), false⟩,
  ⟨[83, 84, 65, 78, 68, 65, 82, 68, 45, 68, 69, 86, 73, 65, 84, 73, 79, 78], (-1), true⟩,
  ⟨[83, 84, 79, 82, 69, 68, 45, 67, 72, 65, 82, 45, 76, 69, 78, 71, 84, 72], 1, true⟩,
  ⟨[83, 85, 66, 83, 84, 73, 84, 85, 84, 69], (-1), true⟩,
  ⟨[83, 85, 66, 83, 84, 73, 84, 85, 84, 69, 45, 67, 65, 83, 69], (-1), true⟩,
  ⟨[83, 85, 77], (-1), true⟩,
  ⟨[84, 65, 78], 1, true⟩,
  ⟨[84, 69, 83, 84, 45, 68, 65, 84, 69, 45, 89, 89, 89, 89, 77, 77, 68, 68], 1, true⟩,
  ⟨[84, 69, 83, 84, 45, 68, 65, 89, 45, 89, 89, 89, 89, 68, 68, 68], 1, true⟩,
  ⟨[84, 69, 83, 84, 45, 78, 85, 77, 86, 65, 76], 1, false⟩,
  ⟨[84, 69, 83, 84, 45, 78, 85, 77, 86, 65, 76, 45, 67], (-1), false⟩,
  ⟨[84, 69, 83, 84, 45, 78, 85, 77, 86, 65, 76, 45, 70], 1, false⟩,
  ⟨[84, 82, 73, 77], 2, true⟩,
  ⟨[85, 80, 80, 69, 82, 45, 67, 65, 83, 69], 1, true⟩,
  ⟨[86, 65, 82, 73, 65, 78, 67, 69], (-1), true⟩,
  ⟨[87, 72, 69, 78, 45, 67, 79, 77, 80, 73, 76, 69, 68], 0, true⟩,
  ⟨[89, 69, 65, 82, 45, 84, 79, 45, 89, 89, 89, 89], (-1), true⟩]

end Cob.Words
