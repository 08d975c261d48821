/- Generated by tools/gen_tables.py from the text of /repo. Do not edit. -/
namespace Gographviz.Parse

/-- internal/parser/action.go:14-18: parser actions. -/
inductive Action where
  | accept
  | shift (state : Nat)
  | reduce (prod : Nat)
  deriving DecidableEq, Repr

/-- internal/parser/actiontable.go:20-152 `actionTab`, decoded from the gzip+gob blob: for each state the list of
(token type, action); absent token types have a nil action. `canRecover` is false in every row. -/
def actionTab : List (List (Nat × Action)) := [
  /- 0 -/ [(2, .shift 2), (5, .shift 3), (6, .shift 4)],
  /- 1 -/ [(1, .accept)],
  /- 2 -/ [(3, .shift 5), (18, .shift 7)],
  /- 3 -/ [(2, .shift 8), (6, .shift 9)],
  /- 4 -/ [(3, .shift 10), (18, .shift 7)],
  /- 5 -/ [(2, .shift 12), (3, .shift 13), (4, .shift 14), (9, .shift 23), (10, .shift 24), (15, .shift 26), (18, .shift 27)],
  /- 6 -/ [(3, .shift 28)],
  /- 7 -/ [(3, .reduce 59)],
  /- 8 -/ [(3, .shift 29), (18, .shift 7)],
  /- 9 -/ [(3, .shift 31), (18, .shift 7)],
  /- 10 -/ [(2, .shift 12), (3, .shift 13), (4, .shift 33), (9, .shift 23), (10, .shift 24), (15, .shift 26), (18, .shift 27)],
  /- 11 -/ [(3, .shift 35)],
  /- 12 -/ [(11, .shift 37)],
  /- 13 -/ [(2, .shift 12), (3, .shift 13), (9, .shift 23), (10, .shift 24), (15, .shift 26), (18, .shift 27)],
  /- 14 -/ [(1, .reduce 1)],
  /- 15 -/ [(2, .reduce 48), (3, .reduce 48), (4, .reduce 48), (7, .reduce 48), (8, .shift 39), (9, .reduce 48), (10, .reduce 48), (11, .reduce 48), (14, .shift 41), (15, .reduce 48), (16, .reduce 48), (17, .reduce 48), (18, .reduce 48)],
  /- 16 -/ [(2, .shift 12), (3, .shift 13), (4, .shift 42), (9, .shift 23), (10, .shift 24), (15, .shift 26), (18, .shift 27)],
  /- 17 -/ [(2, .reduce 17), (3, .reduce 17), (4, .reduce 17), (9, .reduce 17), (10, .reduce 17), (15, .reduce 17), (18, .reduce 17)],
  /- 18 -/ [(2, .reduce 19), (3, .reduce 19), (4, .reduce 19), (7, .shift 44), (9, .reduce 19), (10, .reduce 19), (15, .reduce 19), (18, .reduce 19)],
  /- 19 -/ [(2, .reduce 22), (3, .reduce 22), (4, .reduce 22), (7, .reduce 22), (9, .reduce 22), (10, .reduce 22), (15, .reduce 22), (18, .reduce 22)],
  /- 20 -/ [(2, .reduce 23), (3, .reduce 23), (4, .reduce 23), (7, .reduce 23), (9, .reduce 23), (10, .reduce 23), (15, .reduce 23), (18, .reduce 23)],
  /- 21 -/ [(2, .reduce 24), (3, .reduce 24), (4, .reduce 24), (7, .reduce 24), (9, .reduce 24), (10, .reduce 24), (15, .reduce 24), (18, .reduce 24)],
  /- 22 -/ [(2, .reduce 25), (3, .reduce 25), (4, .reduce 25), (7, .reduce 25), (9, .reduce 25), (10, .reduce 25), (15, .reduce 25), (16, .shift 47), (17, .shift 48), (18, .reduce 25)],
  /- 23 -/ [(11, .shift 37)],
  /- 24 -/ [(11, .shift 37)],
  /- 25 -/ [(2, .reduce 46), (3, .reduce 46), (4, .reduce 46), (7, .reduce 46), (9, .reduce 46), (10, .reduce 46), (11, .shift 37), (15, .reduce 46), (16, .shift 47), (17, .shift 48), (18, .reduce 46)],
  /- 26 -/ [(3, .shift 53), (18, .shift 7)],
  /- 27 -/ [(2, .reduce 59), (3, .reduce 59), (4, .reduce 59), (7, .reduce 59), (8, .reduce 59), (9, .reduce 59), (10, .reduce 59), (11, .reduce 59), (14, .reduce 59), (15, .reduce 59), (16, .reduce 59), (17, .reduce 59), (18, .reduce 59)],
  /- 28 -/ [(2, .shift 12), (3, .shift 13), (4, .shift 55), (9, .shift 23), (10, .shift 24), (15, .shift 26), (18, .shift 27)],
  /- 29 -/ [(2, .shift 12), (3, .shift 13), (4, .shift 57), (9, .shift 23), (10, .shift 24), (15, .shift 26), (18, .shift 27)],
  /- 30 -/ [(3, .shift 59)],
  /- 31 -/ [(2, .shift 12), (3, .shift 13), (4, .shift 60), (9, .shift 23), (10, .shift 24), (15, .shift 26), (18, .shift 27)],
  /- 32 -/ [(3, .shift 62)],
  /- 33 -/ [(1, .reduce 9)],
  /- 34 -/ [(2, .shift 12), (3, .shift 13), (4, .shift 63), (9, .shift 23), (10, .shift 24), (15, .shift 26), (18, .shift 27)],
  /- 35 -/ [(2, .shift 12), (3, .shift 13), (4, .shift 64), (9, .shift 23), (10, .shift 24), (15, .shift 26), (18, .shift 27)],
  /- 36 -/ [(2, .reduce 26), (3, .reduce 26), (4, .reduce 26), (7, .reduce 26), (9, .reduce 26), (10, .reduce 26), (11, .shift 66), (15, .reduce 26), (18, .reduce 26)],
  /- 37 -/ [(12, .shift 68), (18, .shift 71)],
  /- 38 -/ [(2, .shift 12), (3, .shift 13), (4, .shift 72), (9, .shift 23), (10, .shift 24), (15, .shift 26), (18, .shift 27)],
  /- 39 -/ [(18, .shift 74)],
  /- 40 -/ [(2, .reduce 49), (3, .reduce 49), (4, .reduce 49), (7, .reduce 49), (9, .reduce 49), (10, .reduce 49), (11, .reduce 49), (15, .reduce 49), (16, .reduce 49), (17, .reduce 49), (18, .reduce 49)],
  /- 41 -/ [(18, .shift 76)],
  /- 42 -/ [(1, .reduce 5)],
  /- 43 -/ [(2, .reduce 18), (3, .reduce 18), (4, .reduce 18), (9, .reduce 18), (10, .reduce 18), (15, .reduce 18), (18, .reduce 18)],
  /- 44 -/ [(2, .reduce 20), (3, .reduce 20), (4, .reduce 20), (9, .reduce 20), (10, .reduce 20), (15, .reduce 20), (18, .reduce 20)],
  /- 45 -/ [(2, .reduce 40), (3, .reduce 40), (4, .reduce 40), (7, .reduce 40), (9, .reduce 40), (10, .reduce 40), (11, .shift 37), (15, .reduce 40), (16, .shift 47), (17, .shift 48), (18, .reduce 40)],
  /- 46 -/ [(3, .shift 79), (15, .shift 83), (18, .shift 76)],
  /- 47 -/ [(3, .reduce 57), (15, .reduce 57), (18, .reduce 57)],
  /- 48 -/ [(3, .reduce 58), (15, .reduce 58), (18, .reduce 58)],
  /- 49 -/ [(2, .reduce 27), (3, .reduce 27), (4, .reduce 27), (7, .reduce 27), (9, .reduce 27), (10, .reduce 27), (11, .shift 66), (15, .reduce 27), (18, .reduce 27)],
  /- 50 -/ [(2, .reduce 28), (3, .reduce 28), (4, .reduce 28), (7, .reduce 28), (9, .reduce 28), (10, .reduce 28), (11, .shift 66), (15, .reduce 28), (18, .reduce 28)],
  /- 51 -/ [(2, .reduce 47), (3, .reduce 47), (4, .reduce 47), (7, .reduce 47), (9, .reduce 47), (10, .reduce 47), (11, .shift 66), (15, .reduce 47), (18, .reduce 47)],
  /- 52 -/ [(2, .reduce 38), (3, .reduce 38), (4, .reduce 38), (7, .reduce 38), (9, .reduce 38), (10, .reduce 38), (11, .shift 37), (15, .reduce 38), (16, .shift 47), (17, .shift 48), (18, .reduce 38)],
  /- 53 -/ [(2, .shift 12), (3, .shift 13), (4, .shift 85), (9, .shift 23), (10, .shift 24), (15, .shift 26), (18, .shift 27)],
  /- 54 -/ [(3, .shift 87)],
  /- 55 -/ [(1, .reduce 3)],
  /- 56 -/ [(2, .shift 12), (3, .shift 13), (4, .shift 88), (9, .shift 23), (10, .shift 24), (15, .shift 26), (18, .shift 27)],
  /- 57 -/ [(1, .reduce 2)],
  /- 58 -/ [(2, .shift 12), (3, .shift 13), (4, .shift 89), (9, .shift 23), (10, .shift 24), (15, .shift 26), (18, .shift 27)],
  /- 59 -/ [(2, .shift 12), (3, .shift 13), (4, .shift 90), (9, .shift 23), (10, .shift 24), (15, .shift 26), (18, .shift 27)],
  /- 60 -/ [(1, .reduce 10)],
  /- 61 -/ [(2, .shift 12), (3, .shift 13), (4, .shift 92), (9, .shift 23), (10, .shift 24), (15, .shift 26), (18, .shift 27)],
  /- 62 -/ [(2, .shift 12), (3, .shift 13), (4, .shift 93), (9, .shift 23), (10, .shift 24), (15, .shift 26), (18, .shift 27)],
  /- 63 -/ [(1, .reduce 13)],
  /- 64 -/ [(1, .reduce 11)],
  /- 65 -/ [(2, .shift 12), (3, .shift 13), (4, .shift 95), (9, .shift 23), (10, .shift 24), (15, .shift 26), (18, .shift 27)],
  /- 66 -/ [(12, .shift 96), (18, .shift 71)],
  /- 67 -/ [(8, .shift 98), (12, .reduce 36), (13, .reduce 36), (18, .reduce 36)],
  /- 68 -/ [(2, .reduce 29), (3, .reduce 29), (4, .reduce 29), (7, .reduce 29), (9, .reduce 29), (10, .reduce 29), (11, .reduce 29), (15, .reduce 29), (18, .reduce 29)],
  /- 69 -/ [(12, .shift 99), (13, .shift 101), (18, .shift 71)],
  /- 70 -/ [(12, .reduce 33), (13, .reduce 33), (18, .reduce 33)],
  /- 71 -/ [(8, .reduce 59), (12, .reduce 59), (13, .reduce 59), (18, .reduce 59)],
  /- 72 -/ [(2, .reduce 52), (3, .reduce 52), (4, .reduce 52), (7, .reduce 52), (9, .reduce 52), (10, .reduce 52), (15, .reduce 52), (16, .reduce 52), (17, .reduce 52), (18, .reduce 52)],
  /- 73 -/ [(2, .reduce 21), (3, .reduce 21), (4, .reduce 21), (7, .reduce 21), (9, .reduce 21), (10, .reduce 21), (15, .reduce 21), (18, .reduce 21)],
  /- 74 -/ [(2, .reduce 59), (3, .reduce 59), (4, .reduce 59), (7, .reduce 59), (9, .reduce 59), (10, .reduce 59), (15, .reduce 59), (18, .reduce 59)],
  /- 75 -/ [(2, .reduce 50), (3, .reduce 50), (4, .reduce 50), (7, .reduce 50), (9, .reduce 50), (10, .reduce 50), (11, .reduce 50), (14, .shift 102), (15, .reduce 50), (16, .reduce 50), (17, .reduce 50), (18, .reduce 50)],
  /- 76 -/ [(2, .reduce 59), (3, .reduce 59), (4, .reduce 59), (7, .reduce 59), (9, .reduce 59), (10, .reduce 59), (11, .reduce 59), (14, .reduce 59), (15, .reduce 59), (16, .reduce 59), (17, .reduce 59), (18, .reduce 59)],
  /- 77 -/ [(2, .reduce 41), (3, .reduce 41), (4, .reduce 41), (7, .reduce 41), (9, .reduce 41), (10, .reduce 41), (11, .shift 66), (15, .reduce 41), (18, .reduce 41)],
  /- 78 -/ [(3, .shift 79), (15, .shift 83), (18, .shift 76)],
  /- 79 -/ [(2, .shift 12), (3, .shift 13), (9, .shift 23), (10, .shift 24), (15, .shift 26), (18, .shift 27)],
  /- 80 -/ [(2, .reduce 48), (3, .reduce 48), (4, .reduce 48), (7, .reduce 48), (9, .reduce 48), (10, .reduce 48), (11, .reduce 48), (14, .shift 41), (15, .reduce 48), (16, .reduce 48), (17, .reduce 48), (18, .reduce 48)],
  /- 81 -/ [(2, .reduce 43), (3, .reduce 43), (4, .reduce 43), (7, .reduce 43), (9, .reduce 43), (10, .reduce 43), (11, .reduce 43), (15, .reduce 43), (16, .reduce 43), (17, .reduce 43), (18, .reduce 43)],
  /- 82 -/ [(2, .reduce 42), (3, .reduce 42), (4, .reduce 42), (7, .reduce 42), (9, .reduce 42), (10, .reduce 42), (11, .reduce 42), (15, .reduce 42), (16, .reduce 42), (17, .reduce 42), (18, .reduce 42)],
  /- 83 -/ [(3, .shift 106), (18, .shift 7)],
  /- 84 -/ [(2, .reduce 39), (3, .reduce 39), (4, .reduce 39), (7, .reduce 39), (9, .reduce 39), (10, .reduce 39), (11, .shift 66), (15, .reduce 39), (18, .reduce 39)],
  /- 85 -/ [(2, .reduce 55), (3, .reduce 55), (4, .reduce 55), (7, .reduce 55), (9, .reduce 55), (10, .reduce 55), (15, .reduce 55), (16, .reduce 55), (17, .reduce 55), (18, .reduce 55)],
  /- 86 -/ [(2, .shift 12), (3, .shift 13), (4, .shift 108), (9, .shift 23), (10, .shift 24), (15, .shift 26), (18, .shift 27)],
  /- 87 -/ [(2, .shift 12), (3, .shift 13), (4, .shift 109), (9, .shift 23), (10, .shift 24), (15, .shift 26), (18, .shift 27)],
  /- 88 -/ [(1, .reduce 6)],
  /- 89 -/ [(1, .reduce 7)],
  /- 90 -/ [(1, .reduce 4)],
  /- 91 -/ [(2, .shift 12), (3, .shift 13), (4, .shift 111), (9, .shift 23), (10, .shift 24), (15, .shift 26), (18, .shift 27)],
  /- 92 -/ [(1, .reduce 15)],
  /- 93 -/ [(1, .reduce 12)],
  /- 94 -/ [(2, .shift 12), (3, .shift 13), (4, .shift 112), (9, .shift 23), (10, .shift 24), (15, .shift 26), (18, .shift 27)],
  /- 95 -/ [(1, .reduce 14)],
  /- 96 -/ [(2, .reduce 31), (3, .reduce 31), (4, .reduce 31), (7, .reduce 31), (9, .reduce 31), (10, .reduce 31), (11, .reduce 31), (15, .reduce 31), (18, .reduce 31)],
  /- 97 -/ [(12, .shift 113), (13, .shift 101), (18, .shift 71)],
  /- 98 -/ [(18, .shift 115)],
  /- 99 -/ [(2, .reduce 30), (3, .reduce 30), (4, .reduce 30), (7, .reduce 30), (9, .reduce 30), (10, .reduce 30), (11, .reduce 30), (15, .reduce 30), (18, .reduce 30)],
  /- 100 -/ [(12, .reduce 34), (13, .reduce 34), (18, .reduce 34)],
  /- 101 -/ [(18, .shift 71)],
  /- 102 -/ [(18, .shift 118)],
  /- 103 -/ [(2, .reduce 45), (3, .reduce 45), (4, .reduce 45), (7, .reduce 45), (9, .reduce 45), (10, .reduce 45), (11, .reduce 45), (15, .reduce 45), (16, .reduce 45), (17, .reduce 45), (18, .reduce 45)],
  /- 104 -/ [(2, .reduce 44), (3, .reduce 44), (4, .reduce 44), (7, .reduce 44), (9, .reduce 44), (10, .reduce 44), (11, .reduce 44), (15, .reduce 44), (16, .reduce 44), (17, .reduce 44), (18, .reduce 44)],
  /- 105 -/ [(2, .shift 12), (3, .shift 13), (4, .shift 119), (9, .shift 23), (10, .shift 24), (15, .shift 26), (18, .shift 27)],
  /- 106 -/ [(2, .shift 12), (3, .shift 13), (4, .shift 120), (9, .shift 23), (10, .shift 24), (15, .shift 26), (18, .shift 27)],
  /- 107 -/ [(3, .shift 122)],
  /- 108 -/ [(2, .reduce 53), (3, .reduce 53), (4, .reduce 53), (7, .reduce 53), (9, .reduce 53), (10, .reduce 53), (15, .reduce 53), (16, .reduce 53), (17, .reduce 53), (18, .reduce 53)],
  /- 109 -/ [(2, .reduce 56), (3, .reduce 56), (4, .reduce 56), (7, .reduce 56), (9, .reduce 56), (10, .reduce 56), (15, .reduce 56), (16, .reduce 56), (17, .reduce 56), (18, .reduce 56)],
  /- 110 -/ [(2, .shift 12), (3, .shift 13), (4, .shift 123), (9, .shift 23), (10, .shift 24), (15, .shift 26), (18, .shift 27)],
  /- 111 -/ [(1, .reduce 8)],
  /- 112 -/ [(1, .reduce 16)],
  /- 113 -/ [(2, .reduce 32), (3, .reduce 32), (4, .reduce 32), (7, .reduce 32), (9, .reduce 32), (10, .reduce 32), (11, .reduce 32), (15, .reduce 32), (18, .reduce 32)],
  /- 114 -/ [(12, .reduce 37), (13, .reduce 37), (18, .reduce 37)],
  /- 115 -/ [(12, .reduce 59), (13, .reduce 59), (18, .reduce 59)],
  /- 116 -/ [(12, .reduce 35), (13, .reduce 35), (18, .reduce 35)],
  /- 117 -/ [(2, .reduce 51), (3, .reduce 51), (4, .reduce 51), (7, .reduce 51), (9, .reduce 51), (10, .reduce 51), (11, .reduce 51), (15, .reduce 51), (16, .reduce 51), (17, .reduce 51), (18, .reduce 51)],
  /- 118 -/ [(2, .reduce 59), (3, .reduce 59), (4, .reduce 59), (7, .reduce 59), (9, .reduce 59), (10, .reduce 59), (11, .reduce 59), (15, .reduce 59), (16, .reduce 59), (17, .reduce 59), (18, .reduce 59)],
  /- 119 -/ [(2, .reduce 52), (3, .reduce 52), (4, .reduce 52), (7, .reduce 52), (9, .reduce 52), (10, .reduce 52), (11, .reduce 52), (15, .reduce 52), (16, .reduce 52), (17, .reduce 52), (18, .reduce 52)],
  /- 120 -/ [(2, .reduce 55), (3, .reduce 55), (4, .reduce 55), (7, .reduce 55), (9, .reduce 55), (10, .reduce 55), (11, .reduce 55), (15, .reduce 55), (16, .reduce 55), (17, .reduce 55), (18, .reduce 55)],
  /- 121 -/ [(2, .shift 12), (3, .shift 13), (4, .shift 124), (9, .shift 23), (10, .shift 24), (15, .shift 26), (18, .shift 27)],
  /- 122 -/ [(2, .shift 12), (3, .shift 13), (4, .shift 125), (9, .shift 23), (10, .shift 24), (15, .shift 26), (18, .shift 27)],
  /- 123 -/ [(2, .reduce 54), (3, .reduce 54), (4, .reduce 54), (7, .reduce 54), (9, .reduce 54), (10, .reduce 54), (15, .reduce 54), (16, .reduce 54), (17, .reduce 54), (18, .reduce 54)],
  /- 124 -/ [(2, .reduce 53), (3, .reduce 53), (4, .reduce 53), (7, .reduce 53), (9, .reduce 53), (10, .reduce 53), (11, .reduce 53), (15, .reduce 53), (16, .reduce 53), (17, .reduce 53), (18, .reduce 53)],
  /- 125 -/ [(2, .reduce 56), (3, .reduce 56), (4, .reduce 56), (7, .reduce 56), (9, .reduce 56), (10, .reduce 56), (11, .reduce 56), (15, .reduce 56), (16, .reduce 56), (17, .reduce 56), (18, .reduce 56)],
  /- 126 -/ [(2, .shift 12), (3, .shift 13), (4, .shift 127), (9, .shift 23), (10, .shift 24), (15, .shift 26), (18, .shift 27)],
  /- 127 -/ [(2, .reduce 54), (3, .reduce 54), (4, .reduce 54), (7, .reduce 54), (9, .reduce 54), (10, .reduce 54), (11, .reduce 54), (15, .reduce 54), (16, .reduce 54), (17, .reduce 54), (18, .reduce 54)]]

/-- internal/parser/gototable.go:18-56 `gotoTab`, decoded from the gzip+gob blob; `none` is the entry -1. -/
def gotoTab : List (List (Option Nat)) := [
  /- 0 -/ [none, some 1, none, none, none, none, none, none, none, none, none, none, none, none, none, none, none],
  /- 1 -/ [none, none, none, none, none, none, none, none, none, none, none, none, none, none, none, none, none],
  /- 2 -/ [none, none, none, none, none, none, none, none, none, none, none, none, none, none, none, none, some 6],
  /- 3 -/ [none, none, none, none, none, none, none, none, none, none, none, none, none, none, none, none, none],
  /- 4 -/ [none, none, none, none, none, none, none, none, none, none, none, none, none, none, none, none, some 11],
  /- 5 -/ [none, none, some 16, some 17, some 18, some 21, none, none, none, some 20, none, some 19, some 25, none, some 22, none, some 15],
  /- 6 -/ [none, none, none, none, none, none, none, none, none, none, none, none, none, none, none, none, none],
  /- 7 -/ [none, none, none, none, none, none, none, none, none, none, none, none, none, none, none, none, none],
  /- 8 -/ [none, none, none, none, none, none, none, none, none, none, none, none, none, none, none, none, some 30],
  /- 9 -/ [none, none, none, none, none, none, none, none, none, none, none, none, none, none, none, none, some 32],
  /- 10 -/ [none, none, some 34, some 17, some 18, some 21, none, none, none, some 20, none, some 19, some 25, none, some 22, none, some 15],
  /- 11 -/ [none, none, none, none, none, none, none, none, none, none, none, none, none, none, none, none, none],
  /- 12 -/ [none, none, none, none, none, none, some 36, none, none, none, none, none, none, none, none, none, none],
  /- 13 -/ [none, none, some 38, some 17, some 18, some 21, none, none, none, some 20, none, some 19, some 25, none, some 22, none, some 15],
  /- 14 -/ [none, none, none, none, none, none, none, none, none, none, none, none, none, none, none, none, none],
  /- 15 -/ [none, none, none, none, none, none, none, none, none, none, none, none, none, some 40, none, none, none],
  /- 16 -/ [none, none, none, some 43, some 18, some 21, none, none, none, some 20, none, some 19, some 25, none, some 22, none, some 15],
  /- 17 -/ [none, none, none, none, none, none, none, none, none, none, none, none, none, none, none, none, none],
  /- 18 -/ [none, none, none, none, none, none, none, none, none, none, none, none, none, none, none, none, none],
  /- 19 -/ [none, none, none, none, none, none, none, none, none, none, none, none, none, none, none, none, none],
  /- 20 -/ [none, none, none, none, none, none, none, none, none, none, none, none, none, none, none, none, none],
  /- 21 -/ [none, none, none, none, none, none, none, none, none, none, none, none, none, none, none, none, none],
  /- 22 -/ [none, none, none, none, none, none, none, none, none, none, some 45, none, none, none, none, some 46, none],
  /- 23 -/ [none, none, none, none, none, none, some 49, none, none, none, none, none, none, none, none, none, none],
  /- 24 -/ [none, none, none, none, none, none, some 50, none, none, none, none, none, none, none, none, none, none],
  /- 25 -/ [none, none, none, none, none, none, some 51, none, none, none, some 52, none, none, none, none, some 46, none],
  /- 26 -/ [none, none, none, none, none, none, none, none, none, none, none, none, none, none, none, none, some 54],
  /- 27 -/ [none, none, none, none, none, none, none, none, none, none, none, none, none, none, none, none, none],
  /- 28 -/ [none, none, some 56, some 17, some 18, some 21, none, none, none, some 20, none, some 19, some 25, none, some 22, none, some 15],
  /- 29 -/ [none, none, some 58, some 17, some 18, some 21, none, none, none, some 20, none, some 19, some 25, none, some 22, none, some 15],
  /- 30 -/ [none, none, none, none, none, none, none, none, none, none, none, none, none, none, none, none, none],
  /- 31 -/ [none, none, some 61, some 17, some 18, some 21, none, none, none, some 20, none, some 19, some 25, none, some 22, none, some 15],
  /- 32 -/ [none, none, none, none, none, none, none, none, none, none, none, none, none, none, none, none, none],
  /- 33 -/ [none, none, none, none, none, none, none, none, none, none, none, none, none, none, none, none, none],
  /- 34 -/ [none, none, none, some 43, some 18, some 21, none, none, none, some 20, none, some 19, some 25, none, some 22, none, some 15],
  /- 35 -/ [none, none, some 65, some 17, some 18, some 21, none, none, none, some 20, none, some 19, some 25, none, some 22, none, some 15],
  /- 36 -/ [none, none, none, none, none, none, none, none, none, none, none, none, none, none, none, none, none],
  /- 37 -/ [none, none, none, none, none, none, none, some 69, some 70, none, none, none, none, none, none, none, some 67],
  /- 38 -/ [none, none, none, some 43, some 18, some 21, none, none, none, some 20, none, some 19, some 25, none, some 22, none, some 15],
  /- 39 -/ [none, none, none, none, none, none, none, none, none, none, none, none, none, none, none, none, some 73],
  /- 40 -/ [none, none, none, none, none, none, none, none, none, none, none, none, none, none, none, none, none],
  /- 41 -/ [none, none, none, none, none, none, none, none, none, none, none, none, none, none, none, none, some 75],
  /- 42 -/ [none, none, none, none, none, none, none, none, none, none, none, none, none, none, none, none, none],
  /- 43 -/ [none, none, none, none, none, none, none, none, none, none, none, none, none, none, none, none, none],
  /- 44 -/ [none, none, none, none, none, none, none, none, none, none, none, none, none, none, none, none, none],
  /- 45 -/ [none, none, none, none, none, none, some 77, none, none, none, none, none, none, none, none, some 78, none],
  /- 46 -/ [none, none, none, none, none, none, none, none, none, none, none, none, some 82, none, some 81, none, some 80],
  /- 47 -/ [none, none, none, none, none, none, none, none, none, none, none, none, none, none, none, none, none],
  /- 48 -/ [none, none, none, none, none, none, none, none, none, none, none, none, none, none, none, none, none],
  /- 49 -/ [none, none, none, none, none, none, none, none, none, none, none, none, none, none, none, none, none],
  /- 50 -/ [none, none, none, none, none, none, none, none, none, none, none, none, none, none, none, none, none],
  /- 51 -/ [none, none, none, none, none, none, none, none, none, none, none, none, none, none, none, none, none],
  /- 52 -/ [none, none, none, none, none, none, some 84, none, none, none, none, none, none, none, none, some 78, none],
  /- 53 -/ [none, none, some 86, some 17, some 18, some 21, none, none, none, some 20, none, some 19, some 25, none, some 22, none, some 15],
  /- 54 -/ [none, none, none, none, none, none, none, none, none, none, none, none, none, none, none, none, none],
  /- 55 -/ [none, none, none, none, none, none, none, none, none, none, none, none, none, none, none, none, none],
  /- 56 -/ [none, none, none, some 43, some 18, some 21, none, none, none, some 20, none, some 19, some 25, none, some 22, none, some 15],
  /- 57 -/ [none, none, none, none, none, none, none, none, none, none, none, none, none, none, none, none, none],
  /- 58 -/ [none, none, none, some 43, some 18, some 21, none, none, none, some 20, none, some 19, some 25, none, some 22, none, some 15],
  /- 59 -/ [none, none, some 91, some 17, some 18, some 21, none, none, none, some 20, none, some 19, some 25, none, some 22, none, some 15],
  /- 60 -/ [none, none, none, none, none, none, none, none, none, none, none, none, none, none, none, none, none],
  /- 61 -/ [none, none, none, some 43, some 18, some 21, none, none, none, some 20, none, some 19, some 25, none, some 22, none, some 15],
  /- 62 -/ [none, none, some 94, some 17, some 18, some 21, none, none, none, some 20, none, some 19, some 25, none, some 22, none, some 15],
  /- 63 -/ [none, none, none, none, none, none, none, none, none, none, none, none, none, none, none, none, none],
  /- 64 -/ [none, none, none, none, none, none, none, none, none, none, none, none, none, none, none, none, none],
  /- 65 -/ [none, none, none, some 43, some 18, some 21, none, none, none, some 20, none, some 19, some 25, none, some 22, none, some 15],
  /- 66 -/ [none, none, none, none, none, none, none, some 97, some 70, none, none, none, none, none, none, none, some 67],
  /- 67 -/ [none, none, none, none, none, none, none, none, none, none, none, none, none, none, none, none, none],
  /- 68 -/ [none, none, none, none, none, none, none, none, none, none, none, none, none, none, none, none, none],
  /- 69 -/ [none, none, none, none, none, none, none, none, some 100, none, none, none, none, none, none, none, some 67],
  /- 70 -/ [none, none, none, none, none, none, none, none, none, none, none, none, none, none, none, none, none],
  /- 71 -/ [none, none, none, none, none, none, none, none, none, none, none, none, none, none, none, none, none],
  /- 72 -/ [none, none, none, none, none, none, none, none, none, none, none, none, none, none, none, none, none],
  /- 73 -/ [none, none, none, none, none, none, none, none, none, none, none, none, none, none, none, none, none],
  /- 74 -/ [none, none, none, none, none, none, none, none, none, none, none, none, none, none, none, none, none],
  /- 75 -/ [none, none, none, none, none, none, none, none, none, none, none, none, none, none, none, none, none],
  /- 76 -/ [none, none, none, none, none, none, none, none, none, none, none, none, none, none, none, none, none],
  /- 77 -/ [none, none, none, none, none, none, none, none, none, none, none, none, none, none, none, none, none],
  /- 78 -/ [none, none, none, none, none, none, none, none, none, none, none, none, some 104, none, some 103, none, some 80],
  /- 79 -/ [none, none, some 105, some 17, some 18, some 21, none, none, none, some 20, none, some 19, some 25, none, some 22, none, some 15],
  /- 80 -/ [none, none, none, none, none, none, none, none, none, none, none, none, none, some 40, none, none, none],
  /- 81 -/ [none, none, none, none, none, none, none, none, none, none, none, none, none, none, none, none, none],
  /- 82 -/ [none, none, none, none, none, none, none, none, none, none, none, none, none, none, none, none, none],
  /- 83 -/ [none, none, none, none, none, none, none, none, none, none, none, none, none, none, none, none, some 107],
  /- 84 -/ [none, none, none, none, none, none, none, none, none, none, none, none, none, none, none, none, none],
  /- 85 -/ [none, none, none, none, none, none, none, none, none, none, none, none, none, none, none, none, none],
  /- 86 -/ [none, none, none, some 43, some 18, some 21, none, none, none, some 20, none, some 19, some 25, none, some 22, none, some 15],
  /- 87 -/ [none, none, some 110, some 17, some 18, some 21, none, none, none, some 20, none, some 19, some 25, none, some 22, none, some 15],
  /- 88 -/ [none, none, none, none, none, none, none, none, none, none, none, none, none, none, none, none, none],
  /- 89 -/ [none, none, none, none, none, none, none, none, none, none, none, none, none, none, none, none, none],
  /- 90 -/ [none, none, none, none, none, none, none, none, none, none, none, none, none, none, none, none, none],
  /- 91 -/ [none, none, none, some 43, some 18, some 21, none, none, none, some 20, none, some 19, some 25, none, some 22, none, some 15],
  /- 92 -/ [none, none, none, none, none, none, none, none, none, none, none, none, none, none, none, none, none],
  /- 93 -/ [none, none, none, none, none, none, none, none, none, none, none, none, none, none, none, none, none],
  /- 94 -/ [none, none, none, some 43, some 18, some 21, none, none, none, some 20, none, some 19, some 25, none, some 22, none, some 15],
  /- 95 -/ [none, none, none, none, none, none, none, none, none, none, none, none, none, none, none, none, none],
  /- 96 -/ [none, none, none, none, none, none, none, none, none, none, none, none, none, none, none, none, none],
  /- 97 -/ [none, none, none, none, none, none, none, none, some 100, none, none, none, none, none, none, none, some 67],
  /- 98 -/ [none, none, none, none, none, none, none, none, none, none, none, none, none, none, none, none, some 114],
  /- 99 -/ [none, none, none, none, none, none, none, none, none, none, none, none, none, none, none, none, none],
  /- 100 -/ [none, none, none, none, none, none, none, none, none, none, none, none, none, none, none, none, none],
  /- 101 -/ [none, none, none, none, none, none, none, none, some 116, none, none, none, none, none, none, none, some 67],
  /- 102 -/ [none, none, none, none, none, none, none, none, none, none, none, none, none, none, none, none, some 117],
  /- 103 -/ [none, none, none, none, none, none, none, none, none, none, none, none, none, none, none, none, none],
  /- 104 -/ [none, none, none, none, none, none, none, none, none, none, none, none, none, none, none, none, none],
  /- 105 -/ [none, none, none, some 43, some 18, some 21, none, none, none, some 20, none, some 19, some 25, none, some 22, none, some 15],
  /- 106 -/ [none, none, some 121, some 17, some 18, some 21, none, none, none, some 20, none, some 19, some 25, none, some 22, none, some 15],
  /- 107 -/ [none, none, none, none, none, none, none, none, none, none, none, none, none, none, none, none, none],
  /- 108 -/ [none, none, none, none, none, none, none, none, none, none, none, none, none, none, none, none, none],
  /- 109 -/ [none, none, none, none, none, none, none, none, none, none, none, none, none, none, none, none, none],
  /- 110 -/ [none, none, none, some 43, some 18, some 21, none, none, none, some 20, none, some 19, some 25, none, some 22, none, some 15],
  /- 111 -/ [none, none, none, none, none, none, none, none, none, none, none, none, none, none, none, none, none],
  /- 112 -/ [none, none, none, none, none, none, none, none, none, none, none, none, none, none, none, none, none],
  /- 113 -/ [none, none, none, none, none, none, none, none, none, none, none, none, none, none, none, none, none],
  /- 114 -/ [none, none, none, none, none, none, none, none, none, none, none, none, none, none, none, none, none],
  /- 115 -/ [none, none, none, none, none, none, none, none, none, none, none, none, none, none, none, none, none],
  /- 116 -/ [none, none, none, none, none, none, none, none, none, none, none, none, none, none, none, none, none],
  /- 117 -/ [none, none, none, none, none, none, none, none, none, none, none, none, none, none, none, none, none],
  /- 118 -/ [none, none, none, none, none, none, none, none, none, none, none, none, none, none, none, none, none],
  /- 119 -/ [none, none, none, none, none, none, none, none, none, none, none, none, none, none, none, none, none],
  /- 120 -/ [none, none, none, none, none, none, none, none, none, none, none, none, none, none, none, none, none],
  /- 121 -/ [none, none, none, some 43, some 18, some 21, none, none, none, some 20, none, some 19, some 25, none, some 22, none, some 15],
  /- 122 -/ [none, none, some 126, some 17, some 18, some 21, none, none, none, some 20, none, some 19, some 25, none, some 22, none, some 15],
  /- 123 -/ [none, none, none, none, none, none, none, none, none, none, none, none, none, none, none, none, none],
  /- 124 -/ [none, none, none, none, none, none, none, none, none, none, none, none, none, none, none, none, none],
  /- 125 -/ [none, none, none, none, none, none, none, none, none, none, none, none, none, none, none, none, none],
  /- 126 -/ [none, none, none, some 43, some 18, some 21, none, none, none, some 20, none, some 19, some 25, none, some 22, none, some 15],
  /- 127 -/ [none, none, none, none, none, none, none, none, none, none, none, none, none, none, none, none, none]]

/-- internal/parser/productionstable.go:20-622: `NTType` and `NumSymbols` of every production, in order. -/
def prodTab : List (Nat × Nat) := [
  /- 0: S' : DotGraph -/ (0, 1),
  /- 1: DotGraph : graphx "{" "}" -/ (1, 3),
  /- 2: DotGraph : strict graphx "{" "}" -/ (1, 4),
  /- 3: DotGraph : graphx Id "{" "}" -/ (1, 4),
  /- 4: DotGraph : strict graphx Id "{" "}" -/ (1, 5),
  /- 5: DotGraph : graphx "{" StmtList "}" -/ (1, 4),
  /- 6: DotGraph : graphx Id "{" StmtList "}" -/ (1, 5),
  /- 7: DotGraph : strict graphx "{" StmtList "}" -/ (1, 5),
  /- 8: DotGraph : strict graphx Id "{" StmtList "}" -/ (1, 6),
  /- 9: DotGraph : digraph "{" "}" -/ (1, 3),
  /- 10: DotGraph : strict digraph "{" "}" -/ (1, 4),
  /- 11: DotGraph : digraph Id "{" "}" -/ (1, 4),
  /- 12: DotGraph : strict digraph Id "{" "}" -/ (1, 5),
  /- 13: DotGraph : digraph "{" StmtList "}" -/ (1, 4),
  /- 14: DotGraph : digraph Id "{" StmtList "}" -/ (1, 5),
  /- 15: DotGraph : strict digraph "{" StmtList "}" -/ (1, 5),
  /- 16: DotGraph : strict digraph Id "{" StmtList "}" -/ (1, 6),
  /- 17: StmtList : Stmt1 -/ (2, 1),
  /- 18: StmtList : StmtList Stmt1 -/ (2, 2),
  /- 19: Stmt1 : Stmt -/ (3, 1),
  /- 20: Stmt1 : Stmt ";" -/ (3, 2),
  /- 21: Stmt : Id "=" Id -/ (4, 3),
  /- 22: Stmt : NodeStmt -/ (4, 1),
  /- 23: Stmt : EdgeStmt -/ (4, 1),
  /- 24: Stmt : AttrStmt -/ (4, 1),
  /- 25: Stmt : SubGraphStmt -/ (4, 1),
  /- 26: AttrStmt : graphx AttrList -/ (5, 2),
  /- 27: AttrStmt : node AttrList -/ (5, 2),
  /- 28: AttrStmt : edge AttrList -/ (5, 2),
  /- 29: AttrList : "[" "]" -/ (6, 2),
  /- 30: AttrList : "[" AList "]" -/ (6, 3),
  /- 31: AttrList : AttrList "[" "]" -/ (6, 3),
  /- 32: AttrList : AttrList "[" AList "]" -/ (6, 4),
  /- 33: AList : Attr -/ (7, 1),
  /- 34: AList : AList Attr -/ (7, 2),
  /- 35: AList : AList "," Attr -/ (7, 3),
  /- 36: Attr : Id -/ (8, 1),
  /- 37: Attr : Id "=" Id -/ (8, 3),
  /- 38: EdgeStmt : NodeId EdgeRHS -/ (9, 2),
  /- 39: EdgeStmt : NodeId EdgeRHS AttrList -/ (9, 3),
  /- 40: EdgeStmt : SubGraphStmt EdgeRHS -/ (9, 2),
  /- 41: EdgeStmt : SubGraphStmt EdgeRHS AttrList -/ (9, 3),
  /- 42: EdgeRHS : EdgeOp NodeId -/ (10, 2),
  /- 43: EdgeRHS : EdgeOp SubGraphStmt -/ (10, 2),
  /- 44: EdgeRHS : EdgeRHS EdgeOp NodeId -/ (10, 3),
  /- 45: EdgeRHS : EdgeRHS EdgeOp SubGraphStmt -/ (10, 3),
  /- 46: NodeStmt : NodeId -/ (11, 1),
  /- 47: NodeStmt : NodeId AttrList -/ (11, 2),
  /- 48: NodeId : Id -/ (12, 1),
  /- 49: NodeId : Id Port -/ (12, 2),
  /- 50: Port : ":" Id -/ (13, 2),
  /- 51: Port : ":" Id ":" Id -/ (13, 4),
  /- 52: SubGraphStmt : "{" StmtList "}" -/ (14, 3),
  /- 53: SubGraphStmt : subgraph "{" StmtList "}" -/ (14, 4),
  /- 54: SubGraphStmt : subgraph Id "{" StmtList "}" -/ (14, 5),
  /- 55: SubGraphStmt : subgraph "{" "}" -/ (14, 3),
  /- 56: SubGraphStmt : subgraph Id "{" "}" -/ (14, 4),
  /- 57: EdgeOp : "->" -/ (15, 1),
  /- 58: EdgeOp : "--" -/ (15, 1),
  /- 59: Id : id -/ (16, 1)]

/-- The calls made by the `ReduceFunc`s. An argument `some i` is `X[i]`, `none` is `nil`. -/
inductive Act where
  | x (i : Nat)
  | newGraph (type_ strict : Bool) (id l : Option Nat)
  | op (directed : Bool)
  | newStmtList (s : Option Nat)
  | appendStmtList (ss s : Option Nat)
  | newAttr (f v : Option Nat)
  | newGraphAttrs (a : Option Nat)
  | newNodeAttrs (a : Option Nat)
  | newEdgeAttrs (a : Option Nat)
  | newAttrList (a : Option Nat)
  | appendAttrList (as a : Option Nat)
  | newAList (a : Option Nat)
  | appendAList (as a : Option Nat)
  | newEdgeStmt (id e attrs : Option Nat)
  | newEdgeRHS (op id : Option Nat)
  | appendEdgeRHS (e op id : Option Nat)
  | newNodeStmt (id attrs : Option Nat)
  | newNodeID (id port : Option Nat)
  | newPort (id1 id2 : Option Nat)
  | newSubGraph (id l : Option Nat)
  | newID (id : Option Nat)
  deriving DecidableEq, Repr

/-- internal/parser/productionstable.go:20-622: the bodies of the `ReduceFunc`s, in order. -/
def prodActs : List Act := [
  /- 0: line 29 -/ .x 0,
  /- 1: line 39 -/ .newGraph false false none none,
  /- 2: line 49 -/ .newGraph false true none none,
  /- 3: line 59 -/ .newGraph false false (some 1) none,
  /- 4: line 69 -/ .newGraph false true (some 2) none,
  /- 5: line 79 -/ .newGraph false false none (some 2),
  /- 6: line 89 -/ .newGraph false false (some 1) (some 3),
  /- 7: line 99 -/ .newGraph false true none (some 3),
  /- 8: line 109 -/ .newGraph false true (some 2) (some 4),
  /- 9: line 119 -/ .newGraph true false none none,
  /- 10: line 129 -/ .newGraph true true none none,
  /- 11: line 139 -/ .newGraph true false (some 1) none,
  /- 12: line 149 -/ .newGraph true true (some 2) none,
  /- 13: line 159 -/ .newGraph true false none (some 2),
  /- 14: line 169 -/ .newGraph true false (some 1) (some 3),
  /- 15: line 179 -/ .newGraph true true none (some 3),
  /- 16: line 189 -/ .newGraph true true (some 2) (some 4),
  /- 17: line 199 -/ .newStmtList (some 0),
  /- 18: line 209 -/ .appendStmtList (some 0) (some 1),
  /- 19: line 219 -/ .x 0,
  /- 20: line 229 -/ .x 0,
  /- 21: line 239 -/ .newAttr (some 0) (some 2),
  /- 22: line 249 -/ .x 0,
  /- 23: line 259 -/ .x 0,
  /- 24: line 269 -/ .x 0,
  /- 25: line 279 -/ .x 0,
  /- 26: line 289 -/ .newGraphAttrs (some 1),
  /- 27: line 299 -/ .newNodeAttrs (some 1),
  /- 28: line 309 -/ .newEdgeAttrs (some 1),
  /- 29: line 319 -/ .newAttrList none,
  /- 30: line 329 -/ .newAttrList (some 1),
  /- 31: line 339 -/ .appendAttrList (some 0) none,
  /- 32: line 349 -/ .appendAttrList (some 0) (some 2),
  /- 33: line 359 -/ .newAList (some 0),
  /- 34: line 369 -/ .appendAList (some 0) (some 1),
  /- 35: line 379 -/ .appendAList (some 0) (some 2),
  /- 36: line 389 -/ .newAttr (some 0) none,
  /- 37: line 399 -/ .newAttr (some 0) (some 2),
  /- 38: line 409 -/ .newEdgeStmt (some 0) (some 1) none,
  /- 39: line 419 -/ .newEdgeStmt (some 0) (some 1) (some 2),
  /- 40: line 429 -/ .newEdgeStmt (some 0) (some 1) none,
  /- 41: line 439 -/ .newEdgeStmt (some 0) (some 1) (some 2),
  /- 42: line 449 -/ .newEdgeRHS (some 0) (some 1),
  /- 43: line 459 -/ .newEdgeRHS (some 0) (some 1),
  /- 44: line 469 -/ .appendEdgeRHS (some 0) (some 1) (some 2),
  /- 45: line 479 -/ .appendEdgeRHS (some 0) (some 1) (some 2),
  /- 46: line 489 -/ .newNodeStmt (some 0) none,
  /- 47: line 499 -/ .newNodeStmt (some 0) (some 1),
  /- 48: line 509 -/ .newNodeID (some 0) none,
  /- 49: line 519 -/ .newNodeID (some 0) (some 1),
  /- 50: line 529 -/ .newPort (some 1) none,
  /- 51: line 539 -/ .newPort (some 1) (some 3),
  /- 52: line 549 -/ .newSubGraph none (some 1),
  /- 53: line 559 -/ .newSubGraph none (some 2),
  /- 54: line 569 -/ .newSubGraph (some 1) (some 3),
  /- 55: line 579 -/ .newSubGraph none none,
  /- 56: line 589 -/ .newSubGraph (some 1) none,
  /- 57: line 599 -/ .op true,
  /- 58: line 609 -/ .op false,
  /- 59: line 619 -/ .newID (some 0)]

end Gographviz.Parse
