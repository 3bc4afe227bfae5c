import Verif.Base

/-!
# Model of the macros for colours of a terminal (include/Zycore/API/Terminal.h)

A macro is the text of its string literal, without the terminating null character.
-/

namespace Zy

/-- The characters of a string literal. -/
def literalBytes (s : String) : List (BitVec 8) := s.toList.map fun c => BitVec.ofNat 8 c.toNat

/-- `ZYAN_VT100SGR_RESET`: include/Zycore/API/Terminal.h line 52. -/
def sgrReset : List (BitVec 8) := literalBytes "\x1b[0m"

/-- `ZYAN_VT100SGR_FG_DEFAULT`: include/Zycore/API/Terminal.h line 58. -/
def sgrFgDefault : List (BitVec 8) := literalBytes "\x1b[39m"

/-- `ZYAN_VT100SGR_FG_*`: include/Zycore/API/Terminal.h lines 60-75. -/
def sgrFgBlack : List (BitVec 8) := literalBytes "\x1b[30m"
/-- `ZYAN_VT100SGR_FG_RED`: line 61. -/
def sgrFgRed : List (BitVec 8) := literalBytes "\x1b[31m"
/-- `ZYAN_VT100SGR_FG_GREEN`: line 62. -/
def sgrFgGreen : List (BitVec 8) := literalBytes "\x1b[32m"
/-- `ZYAN_VT100SGR_FG_YELLOW`: line 63. -/
def sgrFgYellow : List (BitVec 8) := literalBytes "\x1b[33m"
/-- `ZYAN_VT100SGR_FG_BLUE`: line 64. -/
def sgrFgBlue : List (BitVec 8) := literalBytes "\x1b[34m"
/-- `ZYAN_VT100SGR_FG_MAGENTA`: line 65. -/
def sgrFgMagenta : List (BitVec 8) := literalBytes "\x1b[35m"
/-- `ZYAN_VT100SGR_FG_CYAN`: line 66. -/
def sgrFgCyan : List (BitVec 8) := literalBytes "\x1b[36m"
/-- `ZYAN_VT100SGR_FG_WHITE`: line 67. -/
def sgrFgWhite : List (BitVec 8) := literalBytes "\x1b[37m"
/-- `ZYAN_VT100SGR_FG_BRIGHT_BLACK`: line 68. -/
def sgrFgBrightBlack : List (BitVec 8) := literalBytes "\x1b[90m"
/-- `ZYAN_VT100SGR_FG_BRIGHT_RED`: line 69. -/
def sgrFgBrightRed : List (BitVec 8) := literalBytes "\x1b[91m"
/-- `ZYAN_VT100SGR_FG_BRIGHT_GREEN`: line 70. -/
def sgrFgBrightGreen : List (BitVec 8) := literalBytes "\x1b[92m"
/-- `ZYAN_VT100SGR_FG_BRIGHT_YELLOW`: line 71. -/
def sgrFgBrightYellow : List (BitVec 8) := literalBytes "\x1b[93m"
/-- `ZYAN_VT100SGR_FG_BRIGHT_BLUE`: line 72. -/
def sgrFgBrightBlue : List (BitVec 8) := literalBytes "\x1b[94m"
/-- `ZYAN_VT100SGR_FG_BRIGHT_MAGENTA`: line 73. -/
def sgrFgBrightMagenta : List (BitVec 8) := literalBytes "\x1b[95m"
/-- `ZYAN_VT100SGR_FG_BRIGHT_CYAN`: line 74. -/
def sgrFgBrightCyan : List (BitVec 8) := literalBytes "\x1b[96m"
/-- `ZYAN_VT100SGR_FG_BRIGHT_WHITE`: line 75. -/
def sgrFgBrightWhite : List (BitVec 8) := literalBytes "\x1b[97m"

/-- `ZYAN_VT100SGR_BG_DEFAULT`: include/Zycore/API/Terminal.h line 81. -/
def sgrBgDefault : List (BitVec 8) := literalBytes "\x1b[49m"

/-- `ZYAN_VT100SGR_BG_*`: include/Zycore/API/Terminal.h lines 83-98. -/
def sgrBgBlack : List (BitVec 8) := literalBytes "\x1b[40m"
/-- `ZYAN_VT100SGR_BG_RED`: line 84. -/
def sgrBgRed : List (BitVec 8) := literalBytes "\x1b[41m"
/-- `ZYAN_VT100SGR_BG_GREEN`: line 85. -/
def sgrBgGreen : List (BitVec 8) := literalBytes "\x1b[42m"
/-- `ZYAN_VT100SGR_BG_YELLOW`: line 86. -/
def sgrBgYellow : List (BitVec 8) := literalBytes "\x1b[43m"
/-- `ZYAN_VT100SGR_BG_BLUE`: line 87. -/
def sgrBgBlue : List (BitVec 8) := literalBytes "\x1b[44m"
/-- `ZYAN_VT100SGR_BG_MAGENTA`: line 88. -/
def sgrBgMagenta : List (BitVec 8) := literalBytes "\x1b[45m"
/-- `ZYAN_VT100SGR_BG_CYAN`: line 89. -/
def sgrBgCyan : List (BitVec 8) := literalBytes "\x1b[46m"
/-- `ZYAN_VT100SGR_BG_WHITE`: line 90. -/
def sgrBgWhite : List (BitVec 8) := literalBytes "\x1b[47m"
/-- `ZYAN_VT100SGR_BG_BRIGHT_BLACK`: line 91. -/
def sgrBgBrightBlack : List (BitVec 8) := literalBytes "\x1b[100m"
/-- `ZYAN_VT100SGR_BG_BRIGHT_RED`: line 92. -/
def sgrBgBrightRed : List (BitVec 8) := literalBytes "\x1b[101m"
/-- `ZYAN_VT100SGR_BG_BRIGHT_GREEN`: line 93. -/
def sgrBgBrightGreen : List (BitVec 8) := literalBytes "\x1b[102m"
/-- `ZYAN_VT100SGR_BG_BRIGHT_YELLOW`: line 94. -/
def sgrBgBrightYellow : List (BitVec 8) := literalBytes "\x1b[103m"
/-- `ZYAN_VT100SGR_BG_BRIGHT_BLUE`: line 95. -/
def sgrBgBrightBlue : List (BitVec 8) := literalBytes "\x1b[104m"
/-- `ZYAN_VT100SGR_BG_BRIGHT_MAGENTA`: line 96. -/
def sgrBgBrightMagenta : List (BitVec 8) := literalBytes "\x1b[105m"
/-- `ZYAN_VT100SGR_BG_BRIGHT_CYAN`: line 97. -/
def sgrBgBrightCyan : List (BitVec 8) := literalBytes "\x1b[106m"
/-- `ZYAN_VT100SGR_BG_BRIGHT_WHITE`: line 98. -/
def sgrBgBrightWhite : List (BitVec 8) := literalBytes "\x1b[107m"

end Zy
