/- Generated by tools/gen_tables.py from the text of /repo. Do not edit. -/
namespace Gographviz.Lex

/-- internal/lexer/transitiontable.go:12-2731 `TransTab`. Row `s` is the list of the cases `(lo, hi, target)`
of the switch of state `s`, in order, and the target of its `default` case if it has one
(no match and no default means `NoState`). -/
def transTab : List (List (Nat × Nat × Nat) × Option Nat) := [
  /- S0 -/ ([(9, 9, 1), (10, 10, 1), (13, 13, 1), (32, 32, 1), (34, 34, 2), (35, 35, 3), (44, 44, 4), (45, 45, 5), (46, 46, 6), (47, 47, 7), (48, 57, 8), (58, 58, 9), (59, 59, 10), (60, 60, 11), (61, 61, 12), (65, 67, 13), (68, 68, 14), (69, 69, 15), (70, 70, 13), (71, 71, 16), (72, 77, 13), (78, 78, 17), (79, 82, 13), (83, 83, 18), (84, 90, 13), (91, 91, 19), (93, 93, 20), (95, 95, 21), (97, 99, 13), (100, 100, 22), (101, 101, 23), (102, 102, 13), (103, 103, 24), (104, 109, 13), (110, 110, 25), (111, 114, 13), (115, 115, 26), (116, 122, 13), (123, 123, 27), (125, 125, 28), (128, 65532, 29), (65534, 1114111, 29)], none),
  /- S1 -/ ([], none),
  /- S2 -/ ([(1, 33, 30), (34, 34, 31), (35, 91, 30), (92, 92, 32), (93, 127, 30), (128, 65532, 33), (65534, 1114111, 33)], none),
  /- S3 -/ ([(10, 10, 34)], some 3),
  /- S4 -/ ([], none),
  /- S5 -/ ([(45, 45, 35), (46, 46, 6), (48, 57, 8), (62, 62, 36)], none),
  /- S6 -/ ([(48, 57, 37)], none),
  /- S7 -/ ([(42, 42, 38), (47, 47, 39)], none),
  /- S8 -/ ([(46, 46, 40), (48, 57, 8)], none),
  /- S9 -/ ([], none),
  /- S10 -/ ([], none),
  /- S11 -/ ([(1, 59, 41), (60, 60, 42), (61, 61, 41), (62, 62, 43), (63, 255, 41)], none),
  /- S12 -/ ([], none),
  /- S13 -/ ([(48, 57, 44), (65, 90, 13), (95, 95, 21), (97, 122, 13), (128, 65532, 29), (65534, 1114111, 29)], none),
  /- S14 -/ ([(48, 57, 44), (65, 72, 13), (73, 73, 45), (74, 90, 13), (95, 95, 21), (97, 104, 13), (105, 105, 46), (106, 122, 13), (128, 65532, 29), (65534, 1114111, 29)], none),
  /- S15 -/ ([(48, 57, 44), (65, 67, 13), (68, 68, 47), (69, 90, 13), (95, 95, 21), (97, 99, 13), (100, 100, 48), (101, 122, 13), (128, 65532, 29), (65534, 1114111, 29)], none),
  /- S16 -/ ([(48, 57, 44), (65, 81, 13), (82, 82, 49), (83, 90, 13), (95, 95, 21), (97, 113, 13), (114, 114, 50), (115, 122, 13), (128, 65532, 29), (65534, 1114111, 29)], none),
  /- S17 -/ ([(48, 57, 44), (65, 78, 13), (79, 79, 51), (80, 90, 13), (95, 95, 21), (97, 110, 13), (111, 111, 52), (112, 122, 13), (128, 65532, 29), (65534, 1114111, 29)], none),
  /- S18 -/ ([(48, 57, 44), (65, 83, 13), (84, 84, 53), (85, 85, 54), (86, 90, 13), (95, 95, 21), (97, 115, 13), (116, 116, 55), (117, 117, 56), (118, 122, 13), (128, 65532, 29), (65534, 1114111, 29)], none),
  /- S19 -/ ([], none),
  /- S20 -/ ([], none),
  /- S21 -/ ([(48, 57, 44), (65, 90, 13), (95, 95, 21), (97, 122, 13), (128, 65532, 29), (65534, 1114111, 29)], none),
  /- S22 -/ ([(48, 57, 44), (65, 90, 13), (95, 95, 21), (97, 104, 13), (105, 105, 57), (106, 122, 13), (128, 65532, 29), (65534, 1114111, 29)], none),
  /- S23 -/ ([(48, 57, 44), (65, 90, 13), (95, 95, 21), (97, 99, 13), (100, 100, 58), (101, 122, 13), (128, 65532, 29), (65534, 1114111, 29)], none),
  /- S24 -/ ([(48, 57, 44), (65, 90, 13), (95, 95, 21), (97, 113, 13), (114, 114, 59), (115, 122, 13), (128, 65532, 29), (65534, 1114111, 29)], none),
  /- S25 -/ ([(48, 57, 44), (65, 90, 13), (95, 95, 21), (97, 110, 13), (111, 111, 60), (112, 122, 13), (128, 65532, 29), (65534, 1114111, 29)], none),
  /- S26 -/ ([(48, 57, 44), (65, 90, 13), (95, 95, 21), (97, 115, 13), (116, 116, 61), (117, 117, 62), (118, 122, 13), (128, 65532, 29), (65534, 1114111, 29)], none),
  /- S27 -/ ([], none),
  /- S28 -/ ([], none),
  /- S29 -/ ([(48, 57, 44), (65, 90, 13), (95, 95, 21), (97, 122, 13), (128, 65532, 29), (65534, 1114111, 29)], none),
  /- S30 -/ ([(1, 33, 30), (34, 34, 31), (35, 91, 30), (92, 92, 32), (93, 127, 30), (128, 65532, 33), (65534, 1114111, 33)], none),
  /- S31 -/ ([], none),
  /- S32 -/ ([(1, 33, 63), (34, 34, 64), (35, 91, 63), (92, 92, 64), (93, 127, 63), (128, 65532, 65), (65534, 1114111, 65)], none),
  /- S33 -/ ([(1, 33, 30), (34, 34, 31), (35, 91, 30), (92, 92, 32), (93, 127, 30), (128, 65532, 33), (65534, 1114111, 33)], none),
  /- S34 -/ ([], none),
  /- S35 -/ ([], none),
  /- S36 -/ ([], none),
  /- S37 -/ ([(48, 57, 37)], none),
  /- S38 -/ ([(42, 42, 66)], some 38),
  /- S39 -/ ([(10, 10, 34)], some 39),
  /- S40 -/ ([(48, 57, 67)], none),
  /- S41 -/ ([(1, 59, 41), (60, 60, 42), (61, 61, 41), (62, 62, 43), (63, 255, 41)], none),
  /- S42 -/ ([(1, 59, 68), (61, 61, 68), (63, 255, 68)], none),
  /- S43 -/ ([], none),
  /- S44 -/ ([(48, 57, 44), (65, 90, 13), (95, 95, 21), (97, 122, 13), (128, 65532, 29), (65534, 1114111, 29)], none),
  /- S45 -/ ([(48, 57, 44), (65, 70, 13), (71, 71, 69), (72, 90, 13), (95, 95, 21), (97, 122, 13), (128, 65532, 29), (65534, 1114111, 29)], none),
  /- S46 -/ ([(48, 57, 44), (65, 70, 13), (71, 71, 70), (72, 90, 13), (95, 95, 21), (97, 102, 13), (103, 103, 71), (104, 122, 13), (128, 65532, 29), (65534, 1114111, 29)], none),
  /- S47 -/ ([(48, 57, 44), (65, 70, 13), (71, 71, 72), (72, 90, 13), (95, 95, 21), (97, 122, 13), (128, 65532, 29), (65534, 1114111, 29)], none),
  /- S48 -/ ([(48, 57, 44), (65, 90, 13), (95, 95, 21), (97, 102, 13), (103, 103, 73), (104, 122, 13), (128, 65532, 29), (65534, 1114111, 29)], none),
  /- S49 -/ ([(48, 57, 44), (65, 65, 74), (66, 90, 13), (95, 95, 21), (97, 122, 13), (128, 65532, 29), (65534, 1114111, 29)], none),
  /- S50 -/ ([(48, 57, 44), (65, 90, 13), (95, 95, 21), (97, 97, 75), (98, 122, 13), (128, 65532, 29), (65534, 1114111, 29)], none),
  /- S51 -/ ([(48, 57, 44), (65, 67, 13), (68, 68, 76), (69, 90, 13), (95, 95, 21), (97, 122, 13), (128, 65532, 29), (65534, 1114111, 29)], none),
  /- S52 -/ ([(48, 57, 44), (65, 90, 13), (95, 95, 21), (97, 99, 13), (100, 100, 77), (101, 122, 13), (128, 65532, 29), (65534, 1114111, 29)], none),
  /- S53 -/ ([(48, 57, 44), (65, 81, 13), (82, 82, 78), (83, 90, 13), (95, 95, 21), (97, 122, 13), (128, 65532, 29), (65534, 1114111, 29)], none),
  /- S54 -/ ([(48, 57, 44), (65, 65, 13), (66, 66, 79), (67, 90, 13), (95, 95, 21), (97, 122, 13), (128, 65532, 29), (65534, 1114111, 29)], none),
  /- S55 -/ ([(48, 57, 44), (65, 90, 13), (95, 95, 21), (97, 113, 13), (114, 114, 80), (115, 122, 13), (128, 65532, 29), (65534, 1114111, 29)], none),
  /- S56 -/ ([(48, 57, 44), (65, 90, 13), (95, 95, 21), (97, 97, 13), (98, 98, 81), (99, 122, 13), (128, 65532, 29), (65534, 1114111, 29)], none),
  /- S57 -/ ([(48, 57, 44), (65, 70, 13), (71, 71, 82), (72, 90, 13), (95, 95, 21), (97, 102, 13), (103, 103, 83), (104, 122, 13), (128, 65532, 29), (65534, 1114111, 29)], none),
  /- S58 -/ ([(48, 57, 44), (65, 90, 13), (95, 95, 21), (97, 102, 13), (103, 103, 84), (104, 122, 13), (128, 65532, 29), (65534, 1114111, 29)], none),
  /- S59 -/ ([(48, 57, 44), (65, 90, 13), (95, 95, 21), (97, 97, 85), (98, 122, 13), (128, 65532, 29), (65534, 1114111, 29)], none),
  /- S60 -/ ([(48, 57, 44), (65, 90, 13), (95, 95, 21), (97, 99, 13), (100, 100, 86), (101, 122, 13), (128, 65532, 29), (65534, 1114111, 29)], none),
  /- S61 -/ ([(48, 57, 44), (65, 90, 13), (95, 95, 21), (97, 113, 13), (114, 114, 87), (115, 122, 13), (128, 65532, 29), (65534, 1114111, 29)], none),
  /- S62 -/ ([(48, 57, 44), (65, 90, 13), (95, 95, 21), (97, 97, 13), (98, 98, 88), (99, 122, 13), (128, 65532, 29), (65534, 1114111, 29)], none),
  /- S63 -/ ([(1, 33, 30), (34, 34, 31), (35, 91, 30), (92, 92, 32), (93, 127, 30), (128, 65532, 33), (65534, 1114111, 33)], none),
  /- S64 -/ ([(1, 33, 30), (34, 34, 31), (35, 91, 30), (92, 92, 32), (93, 127, 30), (128, 65532, 33), (65534, 1114111, 33)], none),
  /- S65 -/ ([(1, 33, 30), (34, 34, 31), (35, 91, 30), (92, 92, 32), (93, 127, 30), (128, 65532, 33), (65534, 1114111, 33)], none),
  /- S66 -/ ([(42, 42, 66), (47, 47, 89)], some 38),
  /- S67 -/ ([(48, 57, 67)], none),
  /- S68 -/ ([(1, 59, 68), (61, 61, 68), (62, 62, 90), (63, 255, 68)], none),
  /- S69 -/ ([(48, 57, 44), (65, 81, 13), (82, 82, 91), (83, 90, 13), (95, 95, 21), (97, 122, 13), (128, 65532, 29), (65534, 1114111, 29)], none),
  /- S70 -/ ([(48, 57, 44), (65, 90, 13), (95, 95, 21), (97, 113, 13), (114, 114, 92), (115, 122, 13), (128, 65532, 29), (65534, 1114111, 29)], none),
  /- S71 -/ ([(48, 57, 44), (65, 90, 13), (95, 95, 21), (97, 113, 13), (114, 114, 93), (115, 122, 13), (128, 65532, 29), (65534, 1114111, 29)], none),
  /- S72 -/ ([(48, 57, 44), (65, 68, 13), (69, 69, 94), (70, 90, 13), (95, 95, 21), (97, 122, 13), (128, 65532, 29), (65534, 1114111, 29)], none),
  /- S73 -/ ([(48, 57, 44), (65, 90, 13), (95, 95, 21), (97, 100, 13), (101, 101, 94), (102, 122, 13), (128, 65532, 29), (65534, 1114111, 29)], none),
  /- S74 -/ ([(48, 57, 44), (65, 79, 13), (80, 80, 95), (81, 90, 13), (95, 95, 21), (97, 122, 13), (128, 65532, 29), (65534, 1114111, 29)], none),
  /- S75 -/ ([(48, 57, 44), (65, 90, 13), (95, 95, 21), (97, 111, 13), (112, 112, 96), (113, 122, 13), (128, 65532, 29), (65534, 1114111, 29)], none),
  /- S76 -/ ([(48, 57, 44), (65, 68, 13), (69, 69, 97), (70, 90, 13), (95, 95, 21), (97, 122, 13), (128, 65532, 29), (65534, 1114111, 29)], none),
  /- S77 -/ ([(48, 57, 44), (65, 90, 13), (95, 95, 21), (97, 100, 13), (101, 101, 97), (102, 122, 13), (128, 65532, 29), (65534, 1114111, 29)], none),
  /- S78 -/ ([(48, 57, 44), (65, 72, 13), (73, 73, 98), (74, 90, 13), (95, 95, 21), (97, 122, 13), (128, 65532, 29), (65534, 1114111, 29)], none),
  /- S79 -/ ([(48, 57, 44), (65, 70, 13), (71, 71, 99), (72, 90, 13), (95, 95, 21), (97, 122, 13), (128, 65532, 29), (65534, 1114111, 29)], none),
  /- S80 -/ ([(48, 57, 44), (65, 90, 13), (95, 95, 21), (97, 104, 13), (105, 105, 100), (106, 122, 13), (128, 65532, 29), (65534, 1114111, 29)], none),
  /- S81 -/ ([(48, 57, 44), (65, 70, 13), (71, 71, 101), (72, 90, 13), (95, 95, 21), (97, 102, 13), (103, 103, 102), (104, 122, 13), (128, 65532, 29), (65534, 1114111, 29)], none),
  /- S82 -/ ([(48, 57, 44), (65, 90, 13), (95, 95, 21), (97, 113, 13), (114, 114, 103), (115, 122, 13), (128, 65532, 29), (65534, 1114111, 29)], none),
  /- S83 -/ ([(48, 57, 44), (65, 90, 13), (95, 95, 21), (97, 113, 13), (114, 114, 104), (115, 122, 13), (128, 65532, 29), (65534, 1114111, 29)], none),
  /- S84 -/ ([(48, 57, 44), (65, 90, 13), (95, 95, 21), (97, 100, 13), (101, 101, 94), (102, 122, 13), (128, 65532, 29), (65534, 1114111, 29)], none),
  /- S85 -/ ([(48, 57, 44), (65, 90, 13), (95, 95, 21), (97, 111, 13), (112, 112, 105), (113, 122, 13), (128, 65532, 29), (65534, 1114111, 29)], none),
  /- S86 -/ ([(48, 57, 44), (65, 90, 13), (95, 95, 21), (97, 100, 13), (101, 101, 97), (102, 122, 13), (128, 65532, 29), (65534, 1114111, 29)], none),
  /- S87 -/ ([(48, 57, 44), (65, 90, 13), (95, 95, 21), (97, 104, 13), (105, 105, 106), (106, 122, 13), (128, 65532, 29), (65534, 1114111, 29)], none),
  /- S88 -/ ([(48, 57, 44), (65, 70, 13), (71, 71, 107), (72, 90, 13), (95, 95, 21), (97, 102, 13), (103, 103, 108), (104, 122, 13), (128, 65532, 29), (65534, 1114111, 29)], none),
  /- S89 -/ ([], none),
  /- S90 -/ ([(1, 59, 41), (60, 60, 42), (61, 61, 41), (62, 62, 43), (63, 255, 41)], none),
  /- S91 -/ ([(48, 57, 44), (65, 65, 109), (66, 90, 13), (95, 95, 21), (97, 122, 13), (128, 65532, 29), (65534, 1114111, 29)], none),
  /- S92 -/ ([(48, 57, 44), (65, 90, 13), (95, 95, 21), (97, 97, 110), (98, 122, 13), (128, 65532, 29), (65534, 1114111, 29)], none),
  /- S93 -/ ([(48, 57, 44), (65, 90, 13), (95, 95, 21), (97, 97, 111), (98, 122, 13), (128, 65532, 29), (65534, 1114111, 29)], none),
  /- S94 -/ ([(48, 57, 44), (65, 90, 13), (95, 95, 21), (97, 122, 13), (128, 65532, 29), (65534, 1114111, 29)], none),
  /- S95 -/ ([(48, 57, 44), (65, 71, 13), (72, 72, 112), (73, 90, 13), (95, 95, 21), (97, 122, 13), (128, 65532, 29), (65534, 1114111, 29)], none),
  /- S96 -/ ([(48, 57, 44), (65, 90, 13), (95, 95, 21), (97, 103, 13), (104, 104, 112), (105, 122, 13), (128, 65532, 29), (65534, 1114111, 29)], none),
  /- S97 -/ ([(48, 57, 44), (65, 90, 13), (95, 95, 21), (97, 122, 13), (128, 65532, 29), (65534, 1114111, 29)], none),
  /- S98 -/ ([(48, 57, 44), (65, 66, 13), (67, 67, 113), (68, 90, 13), (95, 95, 21), (97, 122, 13), (128, 65532, 29), (65534, 1114111, 29)], none),
  /- S99 -/ ([(48, 57, 44), (65, 81, 13), (82, 82, 114), (83, 90, 13), (95, 95, 21), (97, 122, 13), (128, 65532, 29), (65534, 1114111, 29)], none),
  /- S100 -/ ([(48, 57, 44), (65, 90, 13), (95, 95, 21), (97, 98, 13), (99, 99, 115), (100, 122, 13), (128, 65532, 29), (65534, 1114111, 29)], none),
  /- S101 -/ ([(48, 57, 44), (65, 90, 13), (95, 95, 21), (97, 113, 13), (114, 114, 116), (115, 122, 13), (128, 65532, 29), (65534, 1114111, 29)], none),
  /- S102 -/ ([(48, 57, 44), (65, 90, 13), (95, 95, 21), (97, 113, 13), (114, 114, 117), (115, 122, 13), (128, 65532, 29), (65534, 1114111, 29)], none),
  /- S103 -/ ([(48, 57, 44), (65, 90, 13), (95, 95, 21), (97, 97, 118), (98, 122, 13), (128, 65532, 29), (65534, 1114111, 29)], none),
  /- S104 -/ ([(48, 57, 44), (65, 90, 13), (95, 95, 21), (97, 97, 119), (98, 122, 13), (128, 65532, 29), (65534, 1114111, 29)], none),
  /- S105 -/ ([(48, 57, 44), (65, 90, 13), (95, 95, 21), (97, 103, 13), (104, 104, 112), (105, 122, 13), (128, 65532, 29), (65534, 1114111, 29)], none),
  /- S106 -/ ([(48, 57, 44), (65, 90, 13), (95, 95, 21), (97, 98, 13), (99, 99, 120), (100, 122, 13), (128, 65532, 29), (65534, 1114111, 29)], none),
  /- S107 -/ ([(48, 57, 44), (65, 90, 13), (95, 95, 21), (97, 113, 13), (114, 114, 121), (115, 122, 13), (128, 65532, 29), (65534, 1114111, 29)], none),
  /- S108 -/ ([(48, 57, 44), (65, 90, 13), (95, 95, 21), (97, 113, 13), (114, 114, 122), (115, 122, 13), (128, 65532, 29), (65534, 1114111, 29)], none),
  /- S109 -/ ([(48, 57, 44), (65, 79, 13), (80, 80, 123), (81, 90, 13), (95, 95, 21), (97, 122, 13), (128, 65532, 29), (65534, 1114111, 29)], none),
  /- S110 -/ ([(48, 57, 44), (65, 90, 13), (95, 95, 21), (97, 111, 13), (112, 112, 124), (113, 122, 13), (128, 65532, 29), (65534, 1114111, 29)], none),
  /- S111 -/ ([(48, 57, 44), (65, 90, 13), (95, 95, 21), (97, 111, 13), (112, 112, 125), (113, 122, 13), (128, 65532, 29), (65534, 1114111, 29)], none),
  /- S112 -/ ([(48, 57, 44), (65, 90, 13), (95, 95, 21), (97, 122, 13), (128, 65532, 29), (65534, 1114111, 29)], none),
  /- S113 -/ ([(48, 57, 44), (65, 83, 13), (84, 84, 126), (85, 90, 13), (95, 95, 21), (97, 122, 13), (128, 65532, 29), (65534, 1114111, 29)], none),
  /- S114 -/ ([(48, 57, 44), (65, 65, 127), (66, 90, 13), (95, 95, 21), (97, 122, 13), (128, 65532, 29), (65534, 1114111, 29)], none),
  /- S115 -/ ([(48, 57, 44), (65, 90, 13), (95, 95, 21), (97, 115, 13), (116, 116, 126), (117, 122, 13), (128, 65532, 29), (65534, 1114111, 29)], none),
  /- S116 -/ ([(48, 57, 44), (65, 90, 13), (95, 95, 21), (97, 97, 128), (98, 122, 13), (128, 65532, 29), (65534, 1114111, 29)], none),
  /- S117 -/ ([(48, 57, 44), (65, 90, 13), (95, 95, 21), (97, 97, 129), (98, 122, 13), (128, 65532, 29), (65534, 1114111, 29)], none),
  /- S118 -/ ([(48, 57, 44), (65, 90, 13), (95, 95, 21), (97, 111, 13), (112, 112, 130), (113, 122, 13), (128, 65532, 29), (65534, 1114111, 29)], none),
  /- S119 -/ ([(48, 57, 44), (65, 90, 13), (95, 95, 21), (97, 111, 13), (112, 112, 131), (113, 122, 13), (128, 65532, 29), (65534, 1114111, 29)], none),
  /- S120 -/ ([(48, 57, 44), (65, 90, 13), (95, 95, 21), (97, 115, 13), (116, 116, 126), (117, 122, 13), (128, 65532, 29), (65534, 1114111, 29)], none),
  /- S121 -/ ([(48, 57, 44), (65, 90, 13), (95, 95, 21), (97, 97, 132), (98, 122, 13), (128, 65532, 29), (65534, 1114111, 29)], none),
  /- S122 -/ ([(48, 57, 44), (65, 90, 13), (95, 95, 21), (97, 97, 133), (98, 122, 13), (128, 65532, 29), (65534, 1114111, 29)], none),
  /- S123 -/ ([(48, 57, 44), (65, 71, 13), (72, 72, 134), (73, 90, 13), (95, 95, 21), (97, 122, 13), (128, 65532, 29), (65534, 1114111, 29)], none),
  /- S124 -/ ([(48, 57, 44), (65, 90, 13), (95, 95, 21), (97, 103, 13), (104, 104, 134), (105, 122, 13), (128, 65532, 29), (65534, 1114111, 29)], none),
  /- S125 -/ ([(48, 57, 44), (65, 90, 13), (95, 95, 21), (97, 103, 13), (104, 104, 134), (105, 122, 13), (128, 65532, 29), (65534, 1114111, 29)], none),
  /- S126 -/ ([(48, 57, 44), (65, 90, 13), (95, 95, 21), (97, 122, 13), (128, 65532, 29), (65534, 1114111, 29)], none),
  /- S127 -/ ([(48, 57, 44), (65, 79, 13), (80, 80, 135), (81, 90, 13), (95, 95, 21), (97, 122, 13), (128, 65532, 29), (65534, 1114111, 29)], none),
  /- S128 -/ ([(48, 57, 44), (65, 90, 13), (95, 95, 21), (97, 111, 13), (112, 112, 136), (113, 122, 13), (128, 65532, 29), (65534, 1114111, 29)], none),
  /- S129 -/ ([(48, 57, 44), (65, 90, 13), (95, 95, 21), (97, 111, 13), (112, 112, 137), (113, 122, 13), (128, 65532, 29), (65534, 1114111, 29)], none),
  /- S130 -/ ([(48, 57, 44), (65, 90, 13), (95, 95, 21), (97, 103, 13), (104, 104, 134), (105, 122, 13), (128, 65532, 29), (65534, 1114111, 29)], none),
  /- S131 -/ ([(48, 57, 44), (65, 90, 13), (95, 95, 21), (97, 103, 13), (104, 104, 134), (105, 122, 13), (128, 65532, 29), (65534, 1114111, 29)], none),
  /- S132 -/ ([(48, 57, 44), (65, 90, 13), (95, 95, 21), (97, 111, 13), (112, 112, 138), (113, 122, 13), (128, 65532, 29), (65534, 1114111, 29)], none),
  /- S133 -/ ([(48, 57, 44), (65, 90, 13), (95, 95, 21), (97, 111, 13), (112, 112, 139), (113, 122, 13), (128, 65532, 29), (65534, 1114111, 29)], none),
  /- S134 -/ ([(48, 57, 44), (65, 90, 13), (95, 95, 21), (97, 122, 13), (128, 65532, 29), (65534, 1114111, 29)], none),
  /- S135 -/ ([(48, 57, 44), (65, 71, 13), (72, 72, 140), (73, 90, 13), (95, 95, 21), (97, 122, 13), (128, 65532, 29), (65534, 1114111, 29)], none),
  /- S136 -/ ([(48, 57, 44), (65, 90, 13), (95, 95, 21), (97, 103, 13), (104, 104, 140), (105, 122, 13), (128, 65532, 29), (65534, 1114111, 29)], none),
  /- S137 -/ ([(48, 57, 44), (65, 90, 13), (95, 95, 21), (97, 103, 13), (104, 104, 140), (105, 122, 13), (128, 65532, 29), (65534, 1114111, 29)], none),
  /- S138 -/ ([(48, 57, 44), (65, 90, 13), (95, 95, 21), (97, 103, 13), (104, 104, 140), (105, 122, 13), (128, 65532, 29), (65534, 1114111, 29)], none),
  /- S139 -/ ([(48, 57, 44), (65, 90, 13), (95, 95, 21), (97, 103, 13), (104, 104, 140), (105, 122, 13), (128, 65532, 29), (65534, 1114111, 29)], none),
  /- S140 -/ ([(48, 57, 44), (65, 90, 13), (95, 95, 21), (97, 122, 13), (128, 65532, 29), (65534, 1114111, 29)], none)]

/-- internal/lexer/acttab.go:22-587 `ActTab`. `some t` is a row with `Accept: t` and `Ignore: ""`, `none` a row with
`Accept: -1` and a non-empty `Ignore` (the generated table has no other rows). -/
def actTab : List (Option Nat) := [
  some 0, none, some 0, some 0, some 13, some 0, some 0, some 0, some 18, some 14, some 7, some 0, some 8, some 18, some 18, some 18, some 18, some 18, some 18, some 11, some 12, some 18, some 18, some 18, some 18, some 18, some 18, some 3, some 4, some 18, some 0, some 18, some 0, some 0, none, some 17, some 16, some 18, some 0, some 0, some 18, some 0, some 0, some 18, some 18, some 18, some 18, some 18, some 18, some 18, some 18, some 18, some 18, some 18, some 18, some 18, some 18, some 18, some 18, some 18, some 18, some 18, some 18, some 0, some 0, some 0, some 0, some 18, some 0, some 18, some 18, some 18, some 18, some 18, some 18, some 18, some 18, some 18, some 18, some 18, some 18, some 18, some 18, some 18, some 18, some 18, some 18, some 18, some 18, none, some 0, some 18, some 18, some 18, some 10, some 18, some 18, some 9, some 18, some 18, some 18, some 18, some 18, some 18, some 18, some 18, some 18, some 18, some 18, some 18, some 18, some 18, some 2, some 18, some 18, some 18, some 18, some 18, some 18, some 18, some 18, some 18, some 18, some 18, some 18, some 18, some 5, some 18, some 18, some 18, some 18, some 18, some 18, some 18, some 6, some 18, some 18, some 18, some 18, some 18, some 15]

end Gographviz.Lex
