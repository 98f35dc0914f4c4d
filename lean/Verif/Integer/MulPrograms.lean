import Verif.Integer.MulIns

/-!
# The straight-line multiplication programs of integer.cpp

Transcribed macro by macro from the `#define`s and functions cited; each entry is one macro invocation.
-/
namespace Verif.Integer

/-- integer.cpp:987-990 macro `Mul_2`. -/
def mul2 : List MulIns :=
  [.begin,
   .save 0 0 1, .acc 1 0,
   .fin 1 1]

/-- integer.cpp:992-999 macro `Mul_4`. -/
def mul4 : List MulIns :=
  [.begin,
   .save 0 0 1, .acc 1 0,
   .save 1 0 2, .acc 1 1, .acc 2 0,
   .save 2 0 3, .acc 1 2, .acc 2 1, .acc 3 0,
   .save 3 1 3, .acc 2 2, .acc 3 1,
   .save 4 2 3, .acc 3 2,
   .fin 5 3]

/-- integer.cpp:1001-1016 macro `Mul_8`. -/
def mul8 : List MulIns :=
  [.begin,
   .save 0 0 1, .acc 1 0,
   .save 1 0 2, .acc 1 1, .acc 2 0,
   .save 2 0 3, .acc 1 2, .acc 2 1, .acc 3 0,
   .save 3 0 4, .acc 1 3, .acc 2 2, .acc 3 1, .acc 4 0,
   .save 4 0 5, .acc 1 4, .acc 2 3, .acc 3 2, .acc 4 1, .acc 5 0,
   .save 5 0 6, .acc 1 5, .acc 2 4, .acc 3 3, .acc 4 2, .acc 5 1, .acc 6 0,
   .save 6 0 7, .acc 1 6, .acc 2 5, .acc 3 4, .acc 4 3, .acc 5 2, .acc 6 1, .acc 7 0,
   .save 7 1 7, .acc 2 6, .acc 3 5, .acc 4 4, .acc 5 3, .acc 6 2, .acc 7 1,
   .save 8 2 7, .acc 3 6, .acc 4 5, .acc 5 4, .acc 6 3, .acc 7 2,
   .save 9 3 7, .acc 4 6, .acc 5 5, .acc 6 4, .acc 7 3,
   .save 10 4 7, .acc 5 6, .acc 6 5, .acc 7 4,
   .save 11 5 7, .acc 6 6, .acc 7 5,
   .save 12 6 7, .acc 7 6,
   .fin 13 7]

/-- integer.cpp:1018-1049 macro `Mul_16`. -/
def mul16 : List MulIns :=
  [.begin,
   .save 0 0 1, .acc 1 0,
   .save 1 0 2, .acc 1 1, .acc 2 0,
   .save 2 0 3, .acc 1 2, .acc 2 1, .acc 3 0,
   .save 3 0 4, .acc 1 3, .acc 2 2, .acc 3 1, .acc 4 0,
   .save 4 0 5, .acc 1 4, .acc 2 3, .acc 3 2, .acc 4 1, .acc 5 0,
   .save 5 0 6, .acc 1 5, .acc 2 4, .acc 3 3, .acc 4 2, .acc 5 1, .acc 6 0,
   .save 6 0 7, .acc 1 6, .acc 2 5, .acc 3 4, .acc 4 3, .acc 5 2, .acc 6 1, .acc 7 0,
   .save 7 0 8, .acc 1 7, .acc 2 6, .acc 3 5, .acc 4 4, .acc 5 3, .acc 6 2, .acc 7 1, .acc 8 0,
   .save 8 0 9, .acc 1 8, .acc 2 7, .acc 3 6, .acc 4 5, .acc 5 4, .acc 6 3, .acc 7 2, .acc 8 1, .acc 9 0,
   .save 9 0 10, .acc 1 9, .acc 2 8, .acc 3 7, .acc 4 6, .acc 5 5, .acc 6 4, .acc 7 3, .acc 8 2, .acc 9 1, .acc 10
    0,
   .save 10 0 11, .acc 1 10, .acc 2 9, .acc 3 8, .acc 4 7, .acc 5 6, .acc 6 5, .acc 7 4, .acc 8 3, .acc 9 2, .acc
    10 1, .acc 11 0,
   .save 11 0 12, .acc 1 11, .acc 2 10, .acc 3 9, .acc 4 8, .acc 5 7, .acc 6 6, .acc 7 5, .acc 8 4, .acc 9 3, .acc
    10 2, .acc 11 1, .acc 12 0,
   .save 12 0 13, .acc 1 12, .acc 2 11, .acc 3 10, .acc 4 9, .acc 5 8, .acc 6 7, .acc 7 6, .acc 8 5, .acc 9 4, .acc
    10 3, .acc 11 2, .acc 12 1, .acc 13 0,
   .save 13 0 14, .acc 1 13, .acc 2 12, .acc 3 11, .acc 4 10, .acc 5 9, .acc 6 8, .acc 7 7, .acc 8 6, .acc 9 5,
    .acc 10 4, .acc 11 3, .acc 12 2, .acc 13 1, .acc 14 0,
   .save 14 0 15, .acc 1 14, .acc 2 13, .acc 3 12, .acc 4 11, .acc 5 10, .acc 6 9, .acc 7 8, .acc 8 7, .acc 9 6,
    .acc 10 5, .acc 11 4, .acc 12 3, .acc 13 2, .acc 14 1, .acc 15 0,
   .save 15 1 15, .acc 2 14, .acc 3 13, .acc 4 12, .acc 5 11, .acc 6 10, .acc 7 9, .acc 8 8, .acc 9 7, .acc 10 6,
    .acc 11 5, .acc 12 4, .acc 13 3, .acc 14 2, .acc 15 1,
   .save 16 2 15, .acc 3 14, .acc 4 13, .acc 5 12, .acc 6 11, .acc 7 10, .acc 8 9, .acc 9 8, .acc 10 7, .acc 11 6,
    .acc 12 5, .acc 13 4, .acc 14 3, .acc 15 2,
   .save 17 3 15, .acc 4 14, .acc 5 13, .acc 6 12, .acc 7 11, .acc 8 10, .acc 9 9, .acc 10 8, .acc 11 7, .acc 12 6,
    .acc 13 5, .acc 14 4, .acc 15 3,
   .save 18 4 15, .acc 5 14, .acc 6 13, .acc 7 12, .acc 8 11, .acc 9 10, .acc 10 9, .acc 11 8, .acc 12 7, .acc 13
    6, .acc 14 5, .acc 15 4,
   .save 19 5 15, .acc 6 14, .acc 7 13, .acc 8 12, .acc 9 11, .acc 10 10, .acc 11 9, .acc 12 8, .acc 13 7, .acc 14
    6, .acc 15 5,
   .save 20 6 15, .acc 7 14, .acc 8 13, .acc 9 12, .acc 10 11, .acc 11 10, .acc 12 9, .acc 13 8, .acc 14 7, .acc 15
    6,
   .save 21 7 15, .acc 8 14, .acc 9 13, .acc 10 12, .acc 11 11, .acc 12 10, .acc 13 9, .acc 14 8, .acc 15 7,
   .save 22 8 15, .acc 9 14, .acc 10 13, .acc 11 12, .acc 12 11, .acc 13 10, .acc 14 9, .acc 15 8,
   .save 23 9 15, .acc 10 14, .acc 11 13, .acc 12 12, .acc 13 11, .acc 14 10, .acc 15 9,
   .save 24 10 15, .acc 11 14, .acc 12 13, .acc 13 12, .acc 14 11, .acc 15 10,
   .save 25 11 15, .acc 12 14, .acc 13 13, .acc 14 12, .acc 15 11,
   .save 26 12 15, .acc 13 14, .acc 14 13, .acc 15 12,
   .save 27 13 15, .acc 14 14, .acc 15 13,
   .save 28 14 15, .acc 15 14,
   .fin 29 15]

/-- integer.cpp:1051-1053 macro `Squ_2`. -/
def squ2 : List MulIns :=
  [.sqBegin,
   .sqEnd 2]

/-- integer.cpp:1055-1061 macro `Squ_4`. -/
def squ4 : List MulIns :=
  [.sqBegin,
   .sqSave 1 0 2, .sqDiag 1,
   .sqSave 2 0 3, .sqAcc 1 2, .sqNonDiag,
   .sqSave 3 1 3, .sqDiag 2,
   .sqSave 4 2 3, .sqNonDiag,
   .sqEnd 4]

/-- integer.cpp:1063-1077 macro `Squ_8`. -/
def squ8 : List MulIns :=
  [.sqBegin,
   .sqSave 1 0 2, .sqDiag 1,
   .sqSave 2 0 3, .sqAcc 1 2, .sqNonDiag,
   .sqSave 3 0 4, .sqAcc 1 3, .sqDiag 2,
   .sqSave 4 0 5, .sqAcc 1 4, .sqAcc 2 3, .sqNonDiag,
   .sqSave 5 0 6, .sqAcc 1 5, .sqAcc 2 4, .sqDiag 3,
   .sqSave 6 0 7, .sqAcc 1 6, .sqAcc 2 5, .sqAcc 3 4, .sqNonDiag,
   .sqSave 7 1 7, .sqAcc 2 6, .sqAcc 3 5, .sqDiag 4,
   .sqSave 8 2 7, .sqAcc 3 6, .sqAcc 4 5, .sqNonDiag,
   .sqSave 9 3 7, .sqAcc 4 6, .sqDiag 5,
   .sqSave 10 4 7, .sqAcc 5 6, .sqNonDiag,
   .sqSave 11 5 7, .sqDiag 6,
   .sqSave 12 6 7, .sqNonDiag,
   .sqEnd 8]

/-- integer.cpp:1079-1109 macro `Squ_16`. -/
def squ16 : List MulIns :=
  [.sqBegin,
   .sqSave 1 0 2, .sqDiag 1,
   .sqSave 2 0 3, .sqAcc 1 2, .sqNonDiag,
   .sqSave 3 0 4, .sqAcc 1 3, .sqDiag 2,
   .sqSave 4 0 5, .sqAcc 1 4, .sqAcc 2 3, .sqNonDiag,
   .sqSave 5 0 6, .sqAcc 1 5, .sqAcc 2 4, .sqDiag 3,
   .sqSave 6 0 7, .sqAcc 1 6, .sqAcc 2 5, .sqAcc 3 4, .sqNonDiag,
   .sqSave 7 0 8, .sqAcc 1 7, .sqAcc 2 6, .sqAcc 3 5, .sqDiag 4,
   .sqSave 8 0 9, .sqAcc 1 8, .sqAcc 2 7, .sqAcc 3 6, .sqAcc 4 5, .sqNonDiag,
   .sqSave 9 0 10, .sqAcc 1 9, .sqAcc 2 8, .sqAcc 3 7, .sqAcc 4 6, .sqDiag 5,
   .sqSave 10 0 11, .sqAcc 1 10, .sqAcc 2 9, .sqAcc 3 8, .sqAcc 4 7, .sqAcc 5 6, .sqNonDiag,
   .sqSave 11 0 12, .sqAcc 1 11, .sqAcc 2 10, .sqAcc 3 9, .sqAcc 4 8, .sqAcc 5 7, .sqDiag 6,
   .sqSave 12 0 13, .sqAcc 1 12, .sqAcc 2 11, .sqAcc 3 10, .sqAcc 4 9, .sqAcc 5 8, .sqAcc 6 7, .sqNonDiag,
   .sqSave 13 0 14, .sqAcc 1 13, .sqAcc 2 12, .sqAcc 3 11, .sqAcc 4 10, .sqAcc 5 9, .sqAcc 6 8, .sqDiag 7,
   .sqSave 14 0 15, .sqAcc 1 14, .sqAcc 2 13, .sqAcc 3 12, .sqAcc 4 11, .sqAcc 5 10, .sqAcc 6 9, .sqAcc 7 8,
    .sqNonDiag,
   .sqSave 15 1 15, .sqAcc 2 14, .sqAcc 3 13, .sqAcc 4 12, .sqAcc 5 11, .sqAcc 6 10, .sqAcc 7 9, .sqDiag 8,
   .sqSave 16 2 15, .sqAcc 3 14, .sqAcc 4 13, .sqAcc 5 12, .sqAcc 6 11, .sqAcc 7 10, .sqAcc 8 9, .sqNonDiag,
   .sqSave 17 3 15, .sqAcc 4 14, .sqAcc 5 13, .sqAcc 6 12, .sqAcc 7 11, .sqAcc 8 10, .sqDiag 9,
   .sqSave 18 4 15, .sqAcc 5 14, .sqAcc 6 13, .sqAcc 7 12, .sqAcc 8 11, .sqAcc 9 10, .sqNonDiag,
   .sqSave 19 5 15, .sqAcc 6 14, .sqAcc 7 13, .sqAcc 8 12, .sqAcc 9 11, .sqDiag 10,
   .sqSave 20 6 15, .sqAcc 7 14, .sqAcc 8 13, .sqAcc 9 12, .sqAcc 10 11, .sqNonDiag,
   .sqSave 21 7 15, .sqAcc 8 14, .sqAcc 9 13, .sqAcc 10 12, .sqDiag 11,
   .sqSave 22 8 15, .sqAcc 9 14, .sqAcc 10 13, .sqAcc 11 12, .sqNonDiag,
   .sqSave 23 9 15, .sqAcc 10 14, .sqAcc 11 13, .sqDiag 12,
   .sqSave 24 10 15, .sqAcc 11 14, .sqAcc 12 13, .sqNonDiag,
   .sqSave 25 11 15, .sqAcc 12 14, .sqDiag 13,
   .sqSave 26 12 15, .sqAcc 13 14, .sqNonDiag,
   .sqSave 27 13 15, .sqDiag 14,
   .sqSave 28 14 15, .sqNonDiag,
   .sqEnd 16]

/-- integer.cpp:1111-1114 macro `Bot_2`. -/
def bot2 : List MulIns :=
  [.begin,
   .botSave 0 0 1, .botAcc 1 0,
   .botEnd 2]

/-- integer.cpp:1116-1121 macro `Bot_4`. -/
def bot4 : List MulIns :=
  [.begin,
   .save 0 0 1, .acc 1 0,
   .save 1 2 0, .acc 1 1, .acc 0 2,
   .botSave 2 0 3, .botAcc 1 2, .botAcc 2 1, .botAcc 3 0,
   .botEnd 4]

/-- integer.cpp:1123-1132 macro `Bot_8`. -/
def bot8 : List MulIns :=
  [.begin,
   .save 0 0 1, .acc 1 0,
   .save 1 0 2, .acc 1 1, .acc 2 0,
   .save 2 0 3, .acc 1 2, .acc 2 1, .acc 3 0,
   .save 3 0 4, .acc 1 3, .acc 2 2, .acc 3 1, .acc 4 0,
   .save 4 0 5, .acc 1 4, .acc 2 3, .acc 3 2, .acc 4 1, .acc 5 0,
   .save 5 0 6, .acc 1 5, .acc 2 4, .acc 3 3, .acc 4 2, .acc 5 1, .acc 6 0,
   .botSave 6 0 7, .botAcc 1 6, .botAcc 2 5, .botAcc 3 4, .botAcc 4 3, .botAcc 5 2, .botAcc 6 1, .botAcc 7 0,
   .botEnd 8]

/-- integer.cpp:1134-1151 macro `Bot_16`. -/
def bot16 : List MulIns :=
  [.begin,
   .save 0 0 1, .acc 1 0,
   .save 1 0 2, .acc 1 1, .acc 2 0,
   .save 2 0 3, .acc 1 2, .acc 2 1, .acc 3 0,
   .save 3 0 4, .acc 1 3, .acc 2 2, .acc 3 1, .acc 4 0,
   .save 4 0 5, .acc 1 4, .acc 2 3, .acc 3 2, .acc 4 1, .acc 5 0,
   .save 5 0 6, .acc 1 5, .acc 2 4, .acc 3 3, .acc 4 2, .acc 5 1, .acc 6 0,
   .save 6 0 7, .acc 1 6, .acc 2 5, .acc 3 4, .acc 4 3, .acc 5 2, .acc 6 1, .acc 7 0,
   .save 7 0 8, .acc 1 7, .acc 2 6, .acc 3 5, .acc 4 4, .acc 5 3, .acc 6 2, .acc 7 1, .acc 8 0,
   .save 8 0 9, .acc 1 8, .acc 2 7, .acc 3 6, .acc 4 5, .acc 5 4, .acc 6 3, .acc 7 2, .acc 8 1, .acc 9 0,
   .save 9 0 10, .acc 1 9, .acc 2 8, .acc 3 7, .acc 4 6, .acc 5 5, .acc 6 4, .acc 7 3, .acc 8 2, .acc 9 1, .acc 10
    0,
   .save 10 0 11, .acc 1 10, .acc 2 9, .acc 3 8, .acc 4 7, .acc 5 6, .acc 6 5, .acc 7 4, .acc 8 3, .acc 9 2, .acc
    10 1, .acc 11 0,
   .save 11 0 12, .acc 1 11, .acc 2 10, .acc 3 9, .acc 4 8, .acc 5 7, .acc 6 6, .acc 7 5, .acc 8 4, .acc 9 3, .acc
    10 2, .acc 11 1, .acc 12 0,
   .save 12 0 13, .acc 1 12, .acc 2 11, .acc 3 10, .acc 4 9, .acc 5 8, .acc 6 7, .acc 7 6, .acc 8 5, .acc 9 4, .acc
    10 3, .acc 11 2, .acc 12 1, .acc 13 0,
   .save 13 0 14, .acc 1 13, .acc 2 12, .acc 3 11, .acc 4 10, .acc 5 9, .acc 6 8, .acc 7 7, .acc 8 6, .acc 9 5,
    .acc 10 4, .acc 11 3, .acc 12 2, .acc 13 1, .acc 14 0,
   .botSave 14 0 15, .botAcc 1 14, .botAcc 2 13, .botAcc 3 12, .botAcc 4 11, .botAcc 5 10, .botAcc 6 9, .botAcc 7
    8, .botAcc 8 7, .botAcc 9 6, .botAcc 10 5, .botAcc 11 4, .botAcc 12 3, .botAcc 13 2, .botAcc 14 1, .botAcc 15 0,
   .botEnd 16]

/-- integer.cpp:1385-1397 body of `Baseline_MultiplyTop4`. -/
def top4 : List MulIns :=
  [.topBegin 4,
   .topAcc 1 1, .topAcc 2 0,
   .topSave0 0 3, .acc 1 2, .acc 2 1, .acc 3 0,
   .topSave1 1 3, .acc 2 2, .acc 3 1,
   .save 0 2 3, .acc 3 2,
   .fin 1 3]

/-- integer.cpp:1399-1415 body of `Baseline_MultiplyTop8`. -/
def top8 : List MulIns :=
  [.topBegin 8,
   .topAcc 1 5, .topAcc 2 4, .topAcc 3 3, .topAcc 4 2, .topAcc 5 1, .topAcc 6 0,
   .topSave0 0 7, .acc 1 6, .acc 2 5, .acc 3 4, .acc 4 3, .acc 5 2, .acc 6 1, .acc 7 0,
   .topSave1 1 7, .acc 2 6, .acc 3 5, .acc 4 4, .acc 5 3, .acc 6 2, .acc 7 1,
   .save 0 2 7, .acc 3 6, .acc 4 5, .acc 5 4, .acc 6 3, .acc 7 2,
   .save 1 3 7, .acc 4 6, .acc 5 5, .acc 6 4, .acc 7 3,
   .save 2 4 7, .acc 5 6, .acc 6 5, .acc 7 4,
   .save 3 5 7, .acc 6 6, .acc 7 5,
   .save 4 6 7, .acc 7 6,
   .fin 5 7]

/-- integer.cpp:1444-1468 body of `Baseline_MultiplyTop16`. -/
def top16 : List MulIns :=
  [.topBegin 16,
   .topAcc 1 13, .topAcc 2 12, .topAcc 3 11, .topAcc 4 10, .topAcc 5 9, .topAcc 6 8, .topAcc 7 7, .topAcc 8 6,
    .topAcc 9 5, .topAcc 10 4, .topAcc 11 3, .topAcc 12 2, .topAcc 13 1, .topAcc 14 0,
   .topSave0 0 15, .acc 1 14, .acc 2 13, .acc 3 12, .acc 4 11, .acc 5 10, .acc 6 9, .acc 7 8, .acc 8 7, .acc 9 6,
    .acc 10 5, .acc 11 4, .acc 12 3, .acc 13 2, .acc 14 1, .acc 15 0,
   .topSave1 1 15, .acc 2 14, .acc 3 13, .acc 4 12, .acc 5 11, .acc 6 10, .acc 7 9, .acc 8 8, .acc 9 7, .acc 10 6,
    .acc 11 5, .acc 12 4, .acc 13 3, .acc 14 2, .acc 15 1,
   .save 0 2 15, .acc 3 14, .acc 4 13, .acc 5 12, .acc 6 11, .acc 7 10, .acc 8 9, .acc 9 8, .acc 10 7, .acc 11 6,
    .acc 12 5, .acc 13 4, .acc 14 3, .acc 15 2,
   .save 1 3 15, .acc 4 14, .acc 5 13, .acc 6 12, .acc 7 11, .acc 8 10, .acc 9 9, .acc 10 8, .acc 11 7, .acc 12 6,
    .acc 13 5, .acc 14 4, .acc 15 3,
   .save 2 4 15, .acc 5 14, .acc 6 13, .acc 7 12, .acc 8 11, .acc 9 10, .acc 10 9, .acc 11 8, .acc 12 7, .acc 13 6,
    .acc 14 5, .acc 15 4,
   .save 3 5 15, .acc 6 14, .acc 7 13, .acc 8 12, .acc 9 11, .acc 10 10, .acc 11 9, .acc 12 8, .acc 13 7, .acc 14
    6, .acc 15 5,
   .save 4 6 15, .acc 7 14, .acc 8 13, .acc 9 12, .acc 10 11, .acc 11 10, .acc 12 9, .acc 13 8, .acc 14 7, .acc 15
    6,
   .save 5 7 15, .acc 8 14, .acc 9 13, .acc 10 12, .acc 11 11, .acc 12 10, .acc 13 9, .acc 14 8, .acc 15 7,
   .save 6 8 15, .acc 9 14, .acc 10 13, .acc 11 12, .acc 12 11, .acc 13 10, .acc 14 9, .acc 15 8,
   .save 7 9 15, .acc 10 14, .acc 11 13, .acc 12 12, .acc 13 11, .acc 14 10, .acc 15 9,
   .save 8 10 15, .acc 11 14, .acc 12 13, .acc 13 12, .acc 14 11, .acc 15 10,
   .save 9 11 15, .acc 12 14, .acc 13 13, .acc 14 12, .acc 15 11,
   .save 10 12 15, .acc 13 14, .acc 14 13, .acc 15 12,
   .save 11 13 15, .acc 14 14, .acc 15 13,
   .save 12 14 15, .acc 15 14,
   .fin 13 15]

end Verif.Integer
