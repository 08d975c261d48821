/- Generated by tools/gen_items.py. A certificate, checked in Proofs/LRViable.lean. -/
namespace Gographviz.Parse

/-- For every state: (rule, position of the dot, lookaheads, index of the entry that justifies it if the position is 0). -/
def itemTab : List (List (Nat × Nat × List Nat × Nat)) := [
  /- 0 -/ [(0, 0, [1], 0), (1, 0, [1], 0), (2, 0, [1], 0), (3, 0, [1], 0), (4, 0, [1], 0), (5, 0, [1], 0), (6, 0, [1], 0), (7, 0, [1], 0), (8, 0, [1], 0), (9, 0, [1], 0), (10, 0, [1], 0), (11, 0, [1], 0), (12, 0, [1], 0), (13, 0, [1], 0), (14, 0, [1], 0), (15, 0, [1], 0)],
  /- 1 -/ [],
  /- 2 -/ [(0, 1, [1], 0), (2, 1, [1], 0), (4, 1, [1], 0), (5, 1, [1], 0), (58, 0, [3], 1)],
  /- 3 -/ [(1, 1, [1], 0), (3, 1, [1], 0), (6, 1, [1], 0), (7, 1, [1], 0), (9, 1, [1], 0), (11, 1, [1], 0), (14, 1, [1], 0), (15, 1, [1], 0)],
  /- 4 -/ [(8, 1, [1], 0), (10, 1, [1], 0), (12, 1, [1], 0), (13, 1, [1], 0), (58, 0, [3], 1)],
  /- 5 -/ [(0, 2, [1], 0), (4, 2, [1], 0), (16, 0, [4], 1), (17, 0, [4], 1), (18, 0, [4], 2), (19, 0, [4], 2), (16, 0, [2, 3, 9, 10, 15, 18], 3), (17, 0, [2, 3, 9, 10, 15, 18], 3), (20, 0, [4], 4), (21, 0, [4], 4), (22, 0, [4], 4), (23, 0, [4], 4), (24, 0, [4], 4), (20, 0, [7], 5), (21, 0, [7], 5), (22, 0, [7], 5), (23, 0, [7], 5), (24, 0, [7], 5), (18, 0, [2, 3, 9, 10, 15, 18], 6), (19, 0, [2, 3, 9, 10, 15, 18], 6), (58, 0, [8], 8), (45, 0, [4], 9), (46, 0, [4], 9), (37, 0, [4], 10), (38, 0, [4], 10), (39, 0, [4], 10), (40, 0, [4], 10), (25, 0, [4], 11), (26, 0, [4], 11), (27, 0, [4], 11), (51, 0, [4], 12), (52, 0, [4], 12), (53, 0, [4], 12), (54, 0, [4], 12), (55, 0, [4], 12), (45, 0, [7], 14), (46, 0, [7], 14), (37, 0, [7], 15), (38, 0, [7], 15), (39, 0, [7], 15), (40, 0, [7], 15), (25, 0, [7], 16), (26, 0, [7], 16), (27, 0, [7], 16), (51, 0, [7], 17), (52, 0, [7], 17), (53, 0, [7], 17), (54, 0, [7], 17), (55, 0, [7], 17), (20, 0, [2, 3, 9, 10, 15, 18], 18), (21, 0, [2, 3, 9, 10, 15, 18], 18), (22, 0, [2, 3, 9, 10, 15, 18], 18), (23, 0, [2, 3, 9, 10, 15, 18], 18), (24, 0, [2, 3, 9, 10, 15, 18], 18), (47, 0, [4], 21), (48, 0, [4], 21), (47, 0, [11], 22), (48, 0, [11], 22), (47, 0, [16, 17], 23), (48, 0, [16, 17], 23), (51, 0, [16, 17], 25), (52, 0, [16, 17], 25), (53, 0, [16, 17], 25), (54, 0, [16, 17], 25), (55, 0, [16, 17], 25), (47, 0, [7], 35), (48, 0, [7], 35), (45, 0, [2, 3, 9, 10, 15, 18], 50), (46, 0, [2, 3, 9, 10, 15, 18], 50), (37, 0, [2, 3, 9, 10, 15, 18], 51), (38, 0, [2, 3, 9, 10, 15, 18], 51), (39, 0, [2, 3, 9, 10, 15, 18], 51), (40, 0, [2, 3, 9, 10, 15, 18], 51), (25, 0, [2, 3, 9, 10, 15, 18], 52), (26, 0, [2, 3, 9, 10, 15, 18], 52), (27, 0, [2, 3, 9, 10, 15, 18], 52), (51, 0, [2, 3, 9, 10, 15, 18], 53), (52, 0, [2, 3, 9, 10, 15, 18], 53), (53, 0, [2, 3, 9, 10, 15, 18], 53), (54, 0, [2, 3, 9, 10, 15, 18], 53), (55, 0, [2, 3, 9, 10, 15, 18], 53), (58, 0, [4], 54), (58, 0, [14], 55), (58, 0, [11], 56), (58, 0, [16, 17], 58), (58, 0, [7], 65), (47, 0, [2, 3, 9, 10, 15, 18], 67), (48, 0, [2, 3, 9, 10, 15, 18], 67), (58, 0, [2, 3, 9, 10, 15, 18], 86)],
  /- 6 -/ [(2, 2, [1], 0), (5, 2, [1], 0)],
  /- 7 -/ [(58, 1, [3], 0)],
  /- 8 -/ [(1, 2, [1], 0), (3, 2, [1], 0), (6, 2, [1], 0), (7, 2, [1], 0), (58, 0, [3], 1)],
  /- 9 -/ [(9, 2, [1], 0), (11, 2, [1], 0), (14, 2, [1], 0), (15, 2, [1], 0), (58, 0, [3], 1)],
  /- 10 -/ [(8, 2, [1], 0), (12, 2, [1], 0), (16, 0, [4], 1), (17, 0, [4], 1), (18, 0, [4], 2), (19, 0, [4], 2), (16, 0, [2, 3, 9, 10, 15, 18], 3), (17, 0, [2, 3, 9, 10, 15, 18], 3), (20, 0, [4], 4), (21, 0, [4], 4), (22, 0, [4], 4), (23, 0, [4], 4), (24, 0, [4], 4), (20, 0, [7], 5), (21, 0, [7], 5), (22, 0, [7], 5), (23, 0, [7], 5), (24, 0, [7], 5), (18, 0, [2, 3, 9, 10, 15, 18], 6), (19, 0, [2, 3, 9, 10, 15, 18], 6), (58, 0, [8], 8), (45, 0, [4], 9), (46, 0, [4], 9), (37, 0, [4], 10), (38, 0, [4], 10), (39, 0, [4], 10), (40, 0, [4], 10), (25, 0, [4], 11), (26, 0, [4], 11), (27, 0, [4], 11), (51, 0, [4], 12), (52, 0, [4], 12), (53, 0, [4], 12), (54, 0, [4], 12), (55, 0, [4], 12), (45, 0, [7], 14), (46, 0, [7], 14), (37, 0, [7], 15), (38, 0, [7], 15), (39, 0, [7], 15), (40, 0, [7], 15), (25, 0, [7], 16), (26, 0, [7], 16), (27, 0, [7], 16), (51, 0, [7], 17), (52, 0, [7], 17), (53, 0, [7], 17), (54, 0, [7], 17), (55, 0, [7], 17), (20, 0, [2, 3, 9, 10, 15, 18], 18), (21, 0, [2, 3, 9, 10, 15, 18], 18), (22, 0, [2, 3, 9, 10, 15, 18], 18), (23, 0, [2, 3, 9, 10, 15, 18], 18), (24, 0, [2, 3, 9, 10, 15, 18], 18), (47, 0, [4], 21), (48, 0, [4], 21), (47, 0, [11], 22), (48, 0, [11], 22), (47, 0, [16, 17], 23), (48, 0, [16, 17], 23), (51, 0, [16, 17], 25), (52, 0, [16, 17], 25), (53, 0, [16, 17], 25), (54, 0, [16, 17], 25), (55, 0, [16, 17], 25), (47, 0, [7], 35), (48, 0, [7], 35), (45, 0, [2, 3, 9, 10, 15, 18], 50), (46, 0, [2, 3, 9, 10, 15, 18], 50), (37, 0, [2, 3, 9, 10, 15, 18], 51), (38, 0, [2, 3, 9, 10, 15, 18], 51), (39, 0, [2, 3, 9, 10, 15, 18], 51), (40, 0, [2, 3, 9, 10, 15, 18], 51), (25, 0, [2, 3, 9, 10, 15, 18], 52), (26, 0, [2, 3, 9, 10, 15, 18], 52), (27, 0, [2, 3, 9, 10, 15, 18], 52), (51, 0, [2, 3, 9, 10, 15, 18], 53), (52, 0, [2, 3, 9, 10, 15, 18], 53), (53, 0, [2, 3, 9, 10, 15, 18], 53), (54, 0, [2, 3, 9, 10, 15, 18], 53), (55, 0, [2, 3, 9, 10, 15, 18], 53), (58, 0, [4], 54), (58, 0, [14], 55), (58, 0, [11], 56), (58, 0, [16, 17], 58), (58, 0, [7], 65), (47, 0, [2, 3, 9, 10, 15, 18], 67), (48, 0, [2, 3, 9, 10, 15, 18], 67), (58, 0, [2, 3, 9, 10, 15, 18], 86)],
  /- 11 -/ [(10, 2, [1], 0), (13, 2, [1], 0)],
  /- 12 -/ [(25, 1, [2, 3, 4, 7, 9, 10, 15, 18], 0), (28, 0, [2, 3, 4, 7, 9, 10, 15, 18], 0), (29, 0, [2, 3, 4, 7, 9, 10, 15, 18], 0), (30, 0, [2, 3, 4, 7, 9, 10, 15, 18], 0), (31, 0, [2, 3, 4, 7, 9, 10, 15, 18], 0), (28, 0, [11], 3), (29, 0, [11], 3), (30, 0, [11], 3), (31, 0, [11], 3)],
  /- 13 -/ [(51, 1, [2, 3, 4, 7, 9, 10, 15, 16, 17, 18], 0), (16, 0, [4], 0), (17, 0, [4], 0), (18, 0, [4], 1), (19, 0, [4], 1), (16, 0, [2, 3, 9, 10, 15, 18], 2), (17, 0, [2, 3, 9, 10, 15, 18], 2), (20, 0, [4], 3), (21, 0, [4], 3), (22, 0, [4], 3), (23, 0, [4], 3), (24, 0, [4], 3), (20, 0, [7], 4), (21, 0, [7], 4), (22, 0, [7], 4), (23, 0, [7], 4), (24, 0, [7], 4), (18, 0, [2, 3, 9, 10, 15, 18], 5), (19, 0, [2, 3, 9, 10, 15, 18], 5), (58, 0, [8], 7), (45, 0, [4], 8), (46, 0, [4], 8), (37, 0, [4], 9), (38, 0, [4], 9), (39, 0, [4], 9), (40, 0, [4], 9), (25, 0, [4], 10), (26, 0, [4], 10), (27, 0, [4], 10), (51, 0, [4], 11), (52, 0, [4], 11), (53, 0, [4], 11), (54, 0, [4], 11), (55, 0, [4], 11), (45, 0, [7], 13), (46, 0, [7], 13), (37, 0, [7], 14), (38, 0, [7], 14), (39, 0, [7], 14), (40, 0, [7], 14), (25, 0, [7], 15), (26, 0, [7], 15), (27, 0, [7], 15), (51, 0, [7], 16), (52, 0, [7], 16), (53, 0, [7], 16), (54, 0, [7], 16), (55, 0, [7], 16), (20, 0, [2, 3, 9, 10, 15, 18], 17), (21, 0, [2, 3, 9, 10, 15, 18], 17), (22, 0, [2, 3, 9, 10, 15, 18], 17), (23, 0, [2, 3, 9, 10, 15, 18], 17), (24, 0, [2, 3, 9, 10, 15, 18], 17), (47, 0, [4], 20), (48, 0, [4], 20), (47, 0, [11], 21), (48, 0, [11], 21), (47, 0, [16, 17], 22), (48, 0, [16, 17], 22), (51, 0, [16, 17], 24), (52, 0, [16, 17], 24), (53, 0, [16, 17], 24), (54, 0, [16, 17], 24), (55, 0, [16, 17], 24), (47, 0, [7], 34), (48, 0, [7], 34), (45, 0, [2, 3, 9, 10, 15, 18], 49), (46, 0, [2, 3, 9, 10, 15, 18], 49), (37, 0, [2, 3, 9, 10, 15, 18], 50), (38, 0, [2, 3, 9, 10, 15, 18], 50), (39, 0, [2, 3, 9, 10, 15, 18], 50), (40, 0, [2, 3, 9, 10, 15, 18], 50), (25, 0, [2, 3, 9, 10, 15, 18], 51), (26, 0, [2, 3, 9, 10, 15, 18], 51), (27, 0, [2, 3, 9, 10, 15, 18], 51), (51, 0, [2, 3, 9, 10, 15, 18], 52), (52, 0, [2, 3, 9, 10, 15, 18], 52), (53, 0, [2, 3, 9, 10, 15, 18], 52), (54, 0, [2, 3, 9, 10, 15, 18], 52), (55, 0, [2, 3, 9, 10, 15, 18], 52), (58, 0, [4], 53), (58, 0, [14], 54), (58, 0, [11], 55), (58, 0, [16, 17], 57), (58, 0, [7], 64), (47, 0, [2, 3, 9, 10, 15, 18], 66), (48, 0, [2, 3, 9, 10, 15, 18], 66), (58, 0, [2, 3, 9, 10, 15, 18], 85)],
  /- 14 -/ [(0, 3, [1], 0)],
  /- 15 -/ [(20, 1, [2, 3, 4, 7, 9, 10, 15, 18], 0), (47, 1, [2, 3, 4, 7, 9, 10, 11, 15, 16, 17, 18], 0), (48, 1, [2, 3, 4, 7, 9, 10, 11, 15, 16, 17, 18], 0), (49, 0, [2, 3, 4, 7, 9, 10, 11, 15, 16, 17, 18], 2), (50, 0, [2, 3, 4, 7, 9, 10, 11, 15, 16, 17, 18], 2)],
  /- 16 -/ [(4, 3, [1], 0), (17, 1, [2, 3, 4, 9, 10, 15, 18], 0), (18, 0, [2, 3, 4, 9, 10, 15, 18], 1), (19, 0, [2, 3, 4, 9, 10, 15, 18], 1), (20, 0, [2, 3, 4, 9, 10, 15, 18], 2), (21, 0, [2, 3, 4, 9, 10, 15, 18], 2), (22, 0, [2, 3, 4, 9, 10, 15, 18], 2), (23, 0, [2, 3, 4, 9, 10, 15, 18], 2), (24, 0, [2, 3, 4, 9, 10, 15, 18], 2), (20, 0, [7], 3), (21, 0, [7], 3), (22, 0, [7], 3), (23, 0, [7], 3), (24, 0, [7], 3), (58, 0, [8], 4), (45, 0, [2, 3, 4, 9, 10, 15, 18], 5), (46, 0, [2, 3, 4, 9, 10, 15, 18], 5), (37, 0, [2, 3, 4, 9, 10, 15, 18], 6), (38, 0, [2, 3, 4, 9, 10, 15, 18], 6), (39, 0, [2, 3, 4, 9, 10, 15, 18], 6), (40, 0, [2, 3, 4, 9, 10, 15, 18], 6), (25, 0, [2, 3, 4, 9, 10, 15, 18], 7), (26, 0, [2, 3, 4, 9, 10, 15, 18], 7), (27, 0, [2, 3, 4, 9, 10, 15, 18], 7), (51, 0, [2, 3, 4, 9, 10, 15, 18], 8), (52, 0, [2, 3, 4, 9, 10, 15, 18], 8), (53, 0, [2, 3, 4, 9, 10, 15, 18], 8), (54, 0, [2, 3, 4, 9, 10, 15, 18], 8), (55, 0, [2, 3, 4, 9, 10, 15, 18], 8), (45, 0, [7], 10), (46, 0, [7], 10), (37, 0, [7], 11), (38, 0, [7], 11), (39, 0, [7], 11), (40, 0, [7], 11), (25, 0, [7], 12), (26, 0, [7], 12), (27, 0, [7], 12), (51, 0, [7], 13), (52, 0, [7], 13), (53, 0, [7], 13), (54, 0, [7], 13), (55, 0, [7], 13), (47, 0, [2, 3, 4, 9, 10, 15, 18], 15), (48, 0, [2, 3, 4, 9, 10, 15, 18], 15), (47, 0, [11], 16), (48, 0, [11], 16), (47, 0, [16, 17], 17), (48, 0, [16, 17], 17), (51, 0, [16, 17], 19), (52, 0, [16, 17], 19), (53, 0, [16, 17], 19), (54, 0, [16, 17], 19), (55, 0, [16, 17], 19), (47, 0, [7], 29), (48, 0, [7], 29), (58, 0, [2, 3, 4, 9, 10, 15, 18], 43), (58, 0, [14], 44), (58, 0, [11], 45), (58, 0, [16, 17], 47), (58, 0, [7], 54)],
  /- 17 -/ [(16, 1, [2, 3, 4, 9, 10, 15, 18], 0)],
  /- 18 -/ [(18, 1, [2, 3, 4, 9, 10, 15, 18], 0), (19, 1, [2, 3, 4, 9, 10, 15, 18], 0)],
  /- 19 -/ [(21, 1, [2, 3, 4, 7, 9, 10, 15, 18], 0)],
  /- 20 -/ [(22, 1, [2, 3, 4, 7, 9, 10, 15, 18], 0)],
  /- 21 -/ [(23, 1, [2, 3, 4, 7, 9, 10, 15, 18], 0)],
  /- 22 -/ [(24, 1, [2, 3, 4, 7, 9, 10, 15, 18], 0), (39, 1, [2, 3, 4, 7, 9, 10, 15, 18], 0), (40, 1, [2, 3, 4, 7, 9, 10, 15, 18], 0), (41, 0, [2, 3, 4, 7, 9, 10, 15, 18], 1), (42, 0, [2, 3, 4, 7, 9, 10, 15, 18], 1), (43, 0, [2, 3, 4, 7, 9, 10, 15, 18], 1), (44, 0, [2, 3, 4, 7, 9, 10, 15, 18], 1), (41, 0, [11], 2), (42, 0, [11], 2), (43, 0, [11], 2), (44, 0, [11], 2), (56, 0, [18], 3), (57, 0, [18], 3), (56, 0, [3, 15], 4), (57, 0, [3, 15], 4), (41, 0, [16, 17], 5), (42, 0, [16, 17], 5), (43, 0, [16, 17], 5), (44, 0, [16, 17], 5)],
  /- 23 -/ [(26, 1, [2, 3, 4, 7, 9, 10, 15, 18], 0), (28, 0, [2, 3, 4, 7, 9, 10, 15, 18], 0), (29, 0, [2, 3, 4, 7, 9, 10, 15, 18], 0), (30, 0, [2, 3, 4, 7, 9, 10, 15, 18], 0), (31, 0, [2, 3, 4, 7, 9, 10, 15, 18], 0), (28, 0, [11], 3), (29, 0, [11], 3), (30, 0, [11], 3), (31, 0, [11], 3)],
  /- 24 -/ [(27, 1, [2, 3, 4, 7, 9, 10, 15, 18], 0), (28, 0, [2, 3, 4, 7, 9, 10, 15, 18], 0), (29, 0, [2, 3, 4, 7, 9, 10, 15, 18], 0), (30, 0, [2, 3, 4, 7, 9, 10, 15, 18], 0), (31, 0, [2, 3, 4, 7, 9, 10, 15, 18], 0), (28, 0, [11], 3), (29, 0, [11], 3), (30, 0, [11], 3), (31, 0, [11], 3)],
  /- 25 -/ [(37, 1, [2, 3, 4, 7, 9, 10, 15, 18], 0), (38, 1, [2, 3, 4, 7, 9, 10, 15, 18], 0), (45, 1, [2, 3, 4, 7, 9, 10, 15, 18], 0), (46, 1, [2, 3, 4, 7, 9, 10, 15, 18], 0), (41, 0, [2, 3, 4, 7, 9, 10, 15, 18], 0), (42, 0, [2, 3, 4, 7, 9, 10, 15, 18], 0), (43, 0, [2, 3, 4, 7, 9, 10, 15, 18], 0), (44, 0, [2, 3, 4, 7, 9, 10, 15, 18], 0), (41, 0, [11], 1), (42, 0, [11], 1), (43, 0, [11], 1), (44, 0, [11], 1), (28, 0, [2, 3, 4, 7, 9, 10, 15, 18], 3), (29, 0, [2, 3, 4, 7, 9, 10, 15, 18], 3), (30, 0, [2, 3, 4, 7, 9, 10, 15, 18], 3), (31, 0, [2, 3, 4, 7, 9, 10, 15, 18], 3), (56, 0, [18], 4), (57, 0, [18], 4), (56, 0, [3, 15], 5), (57, 0, [3, 15], 5), (41, 0, [16, 17], 6), (42, 0, [16, 17], 6), (43, 0, [16, 17], 6), (44, 0, [16, 17], 6), (28, 0, [11], 14), (29, 0, [11], 14), (30, 0, [11], 14), (31, 0, [11], 14)],
  /- 26 -/ [(52, 1, [2, 3, 4, 7, 9, 10, 15, 16, 17, 18], 0), (53, 1, [2, 3, 4, 7, 9, 10, 15, 16, 17, 18], 0), (54, 1, [2, 3, 4, 7, 9, 10, 15, 16, 17, 18], 0), (55, 1, [2, 3, 4, 7, 9, 10, 15, 16, 17, 18], 0), (58, 0, [3], 1)],
  /- 27 -/ [(58, 1, [2, 3, 4, 7, 8, 9, 10, 11, 14, 15, 16, 17, 18], 0)],
  /- 28 -/ [(2, 3, [1], 0), (5, 3, [1], 0), (16, 0, [4], 1), (17, 0, [4], 1), (18, 0, [4], 2), (19, 0, [4], 2), (16, 0, [2, 3, 9, 10, 15, 18], 3), (17, 0, [2, 3, 9, 10, 15, 18], 3), (20, 0, [4], 4), (21, 0, [4], 4), (22, 0, [4], 4), (23, 0, [4], 4), (24, 0, [4], 4), (20, 0, [7], 5), (21, 0, [7], 5), (22, 0, [7], 5), (23, 0, [7], 5), (24, 0, [7], 5), (18, 0, [2, 3, 9, 10, 15, 18], 6), (19, 0, [2, 3, 9, 10, 15, 18], 6), (58, 0, [8], 8), (45, 0, [4], 9), (46, 0, [4], 9), (37, 0, [4], 10), (38, 0, [4], 10), (39, 0, [4], 10), (40, 0, [4], 10), (25, 0, [4], 11), (26, 0, [4], 11), (27, 0, [4], 11), (51, 0, [4], 12), (52, 0, [4], 12), (53, 0, [4], 12), (54, 0, [4], 12), (55, 0, [4], 12), (45, 0, [7], 14), (46, 0, [7], 14), (37, 0, [7], 15), (38, 0, [7], 15), (39, 0, [7], 15), (40, 0, [7], 15), (25, 0, [7], 16), (26, 0, [7], 16), (27, 0, [7], 16), (51, 0, [7], 17), (52, 0, [7], 17), (53, 0, [7], 17), (54, 0, [7], 17), (55, 0, [7], 17), (20, 0, [2, 3, 9, 10, 15, 18], 18), (21, 0, [2, 3, 9, 10, 15, 18], 18), (22, 0, [2, 3, 9, 10, 15, 18], 18), (23, 0, [2, 3, 9, 10, 15, 18], 18), (24, 0, [2, 3, 9, 10, 15, 18], 18), (47, 0, [4], 21), (48, 0, [4], 21), (47, 0, [11], 22), (48, 0, [11], 22), (47, 0, [16, 17], 23), (48, 0, [16, 17], 23), (51, 0, [16, 17], 25), (52, 0, [16, 17], 25), (53, 0, [16, 17], 25), (54, 0, [16, 17], 25), (55, 0, [16, 17], 25), (47, 0, [7], 35), (48, 0, [7], 35), (45, 0, [2, 3, 9, 10, 15, 18], 50), (46, 0, [2, 3, 9, 10, 15, 18], 50), (37, 0, [2, 3, 9, 10, 15, 18], 51), (38, 0, [2, 3, 9, 10, 15, 18], 51), (39, 0, [2, 3, 9, 10, 15, 18], 51), (40, 0, [2, 3, 9, 10, 15, 18], 51), (25, 0, [2, 3, 9, 10, 15, 18], 52), (26, 0, [2, 3, 9, 10, 15, 18], 52), (27, 0, [2, 3, 9, 10, 15, 18], 52), (51, 0, [2, 3, 9, 10, 15, 18], 53), (52, 0, [2, 3, 9, 10, 15, 18], 53), (53, 0, [2, 3, 9, 10, 15, 18], 53), (54, 0, [2, 3, 9, 10, 15, 18], 53), (55, 0, [2, 3, 9, 10, 15, 18], 53), (58, 0, [4], 54), (58, 0, [14], 55), (58, 0, [11], 56), (58, 0, [16, 17], 58), (58, 0, [7], 65), (47, 0, [2, 3, 9, 10, 15, 18], 67), (48, 0, [2, 3, 9, 10, 15, 18], 67), (58, 0, [2, 3, 9, 10, 15, 18], 86)],
  /- 29 -/ [(1, 3, [1], 0), (6, 3, [1], 0), (16, 0, [4], 1), (17, 0, [4], 1), (18, 0, [4], 2), (19, 0, [4], 2), (16, 0, [2, 3, 9, 10, 15, 18], 3), (17, 0, [2, 3, 9, 10, 15, 18], 3), (20, 0, [4], 4), (21, 0, [4], 4), (22, 0, [4], 4), (23, 0, [4], 4), (24, 0, [4], 4), (20, 0, [7], 5), (21, 0, [7], 5), (22, 0, [7], 5), (23, 0, [7], 5), (24, 0, [7], 5), (18, 0, [2, 3, 9, 10, 15, 18], 6), (19, 0, [2, 3, 9, 10, 15, 18], 6), (58, 0, [8], 8), (45, 0, [4], 9), (46, 0, [4], 9), (37, 0, [4], 10), (38, 0, [4], 10), (39, 0, [4], 10), (40, 0, [4], 10), (25, 0, [4], 11), (26, 0, [4], 11), (27, 0, [4], 11), (51, 0, [4], 12), (52, 0, [4], 12), (53, 0, [4], 12), (54, 0, [4], 12), (55, 0, [4], 12), (45, 0, [7], 14), (46, 0, [7], 14), (37, 0, [7], 15), (38, 0, [7], 15), (39, 0, [7], 15), (40, 0, [7], 15), (25, 0, [7], 16), (26, 0, [7], 16), (27, 0, [7], 16), (51, 0, [7], 17), (52, 0, [7], 17), (53, 0, [7], 17), (54, 0, [7], 17), (55, 0, [7], 17), (20, 0, [2, 3, 9, 10, 15, 18], 18), (21, 0, [2, 3, 9, 10, 15, 18], 18), (22, 0, [2, 3, 9, 10, 15, 18], 18), (23, 0, [2, 3, 9, 10, 15, 18], 18), (24, 0, [2, 3, 9, 10, 15, 18], 18), (47, 0, [4], 21), (48, 0, [4], 21), (47, 0, [11], 22), (48, 0, [11], 22), (47, 0, [16, 17], 23), (48, 0, [16, 17], 23), (51, 0, [16, 17], 25), (52, 0, [16, 17], 25), (53, 0, [16, 17], 25), (54, 0, [16, 17], 25), (55, 0, [16, 17], 25), (47, 0, [7], 35), (48, 0, [7], 35), (45, 0, [2, 3, 9, 10, 15, 18], 50), (46, 0, [2, 3, 9, 10, 15, 18], 50), (37, 0, [2, 3, 9, 10, 15, 18], 51), (38, 0, [2, 3, 9, 10, 15, 18], 51), (39, 0, [2, 3, 9, 10, 15, 18], 51), (40, 0, [2, 3, 9, 10, 15, 18], 51), (25, 0, [2, 3, 9, 10, 15, 18], 52), (26, 0, [2, 3, 9, 10, 15, 18], 52), (27, 0, [2, 3, 9, 10, 15, 18], 52), (51, 0, [2, 3, 9, 10, 15, 18], 53), (52, 0, [2, 3, 9, 10, 15, 18], 53), (53, 0, [2, 3, 9, 10, 15, 18], 53), (54, 0, [2, 3, 9, 10, 15, 18], 53), (55, 0, [2, 3, 9, 10, 15, 18], 53), (58, 0, [4], 54), (58, 0, [14], 55), (58, 0, [11], 56), (58, 0, [16, 17], 58), (58, 0, [7], 65), (47, 0, [2, 3, 9, 10, 15, 18], 67), (48, 0, [2, 3, 9, 10, 15, 18], 67), (58, 0, [2, 3, 9, 10, 15, 18], 86)],
  /- 30 -/ [(3, 3, [1], 0), (7, 3, [1], 0)],
  /- 31 -/ [(9, 3, [1], 0), (14, 3, [1], 0), (16, 0, [4], 1), (17, 0, [4], 1), (18, 0, [4], 2), (19, 0, [4], 2), (16, 0, [2, 3, 9, 10, 15, 18], 3), (17, 0, [2, 3, 9, 10, 15, 18], 3), (20, 0, [4], 4), (21, 0, [4], 4), (22, 0, [4], 4), (23, 0, [4], 4), (24, 0, [4], 4), (20, 0, [7], 5), (21, 0, [7], 5), (22, 0, [7], 5), (23, 0, [7], 5), (24, 0, [7], 5), (18, 0, [2, 3, 9, 10, 15, 18], 6), (19, 0, [2, 3, 9, 10, 15, 18], 6), (58, 0, [8], 8), (45, 0, [4], 9), (46, 0, [4], 9), (37, 0, [4], 10), (38, 0, [4], 10), (39, 0, [4], 10), (40, 0, [4], 10), (25, 0, [4], 11), (26, 0, [4], 11), (27, 0, [4], 11), (51, 0, [4], 12), (52, 0, [4], 12), (53, 0, [4], 12), (54, 0, [4], 12), (55, 0, [4], 12), (45, 0, [7], 14), (46, 0, [7], 14), (37, 0, [7], 15), (38, 0, [7], 15), (39, 0, [7], 15), (40, 0, [7], 15), (25, 0, [7], 16), (26, 0, [7], 16), (27, 0, [7], 16), (51, 0, [7], 17), (52, 0, [7], 17), (53, 0, [7], 17), (54, 0, [7], 17), (55, 0, [7], 17), (20, 0, [2, 3, 9, 10, 15, 18], 18), (21, 0, [2, 3, 9, 10, 15, 18], 18), (22, 0, [2, 3, 9, 10, 15, 18], 18), (23, 0, [2, 3, 9, 10, 15, 18], 18), (24, 0, [2, 3, 9, 10, 15, 18], 18), (47, 0, [4], 21), (48, 0, [4], 21), (47, 0, [11], 22), (48, 0, [11], 22), (47, 0, [16, 17], 23), (48, 0, [16, 17], 23), (51, 0, [16, 17], 25), (52, 0, [16, 17], 25), (53, 0, [16, 17], 25), (54, 0, [16, 17], 25), (55, 0, [16, 17], 25), (47, 0, [7], 35), (48, 0, [7], 35), (45, 0, [2, 3, 9, 10, 15, 18], 50), (46, 0, [2, 3, 9, 10, 15, 18], 50), (37, 0, [2, 3, 9, 10, 15, 18], 51), (38, 0, [2, 3, 9, 10, 15, 18], 51), (39, 0, [2, 3, 9, 10, 15, 18], 51), (40, 0, [2, 3, 9, 10, 15, 18], 51), (25, 0, [2, 3, 9, 10, 15, 18], 52), (26, 0, [2, 3, 9, 10, 15, 18], 52), (27, 0, [2, 3, 9, 10, 15, 18], 52), (51, 0, [2, 3, 9, 10, 15, 18], 53), (52, 0, [2, 3, 9, 10, 15, 18], 53), (53, 0, [2, 3, 9, 10, 15, 18], 53), (54, 0, [2, 3, 9, 10, 15, 18], 53), (55, 0, [2, 3, 9, 10, 15, 18], 53), (58, 0, [4], 54), (58, 0, [14], 55), (58, 0, [11], 56), (58, 0, [16, 17], 58), (58, 0, [7], 65), (47, 0, [2, 3, 9, 10, 15, 18], 67), (48, 0, [2, 3, 9, 10, 15, 18], 67), (58, 0, [2, 3, 9, 10, 15, 18], 86)],
  /- 32 -/ [(11, 3, [1], 0), (15, 3, [1], 0)],
  /- 33 -/ [(8, 3, [1], 0)],
  /- 34 -/ [(12, 3, [1], 0), (17, 1, [2, 3, 4, 9, 10, 15, 18], 0), (18, 0, [2, 3, 4, 9, 10, 15, 18], 1), (19, 0, [2, 3, 4, 9, 10, 15, 18], 1), (20, 0, [2, 3, 4, 9, 10, 15, 18], 2), (21, 0, [2, 3, 4, 9, 10, 15, 18], 2), (22, 0, [2, 3, 4, 9, 10, 15, 18], 2), (23, 0, [2, 3, 4, 9, 10, 15, 18], 2), (24, 0, [2, 3, 4, 9, 10, 15, 18], 2), (20, 0, [7], 3), (21, 0, [7], 3), (22, 0, [7], 3), (23, 0, [7], 3), (24, 0, [7], 3), (58, 0, [8], 4), (45, 0, [2, 3, 4, 9, 10, 15, 18], 5), (46, 0, [2, 3, 4, 9, 10, 15, 18], 5), (37, 0, [2, 3, 4, 9, 10, 15, 18], 6), (38, 0, [2, 3, 4, 9, 10, 15, 18], 6), (39, 0, [2, 3, 4, 9, 10, 15, 18], 6), (40, 0, [2, 3, 4, 9, 10, 15, 18], 6), (25, 0, [2, 3, 4, 9, 10, 15, 18], 7), (26, 0, [2, 3, 4, 9, 10, 15, 18], 7), (27, 0, [2, 3, 4, 9, 10, 15, 18], 7), (51, 0, [2, 3, 4, 9, 10, 15, 18], 8), (52, 0, [2, 3, 4, 9, 10, 15, 18], 8), (53, 0, [2, 3, 4, 9, 10, 15, 18], 8), (54, 0, [2, 3, 4, 9, 10, 15, 18], 8), (55, 0, [2, 3, 4, 9, 10, 15, 18], 8), (45, 0, [7], 10), (46, 0, [7], 10), (37, 0, [7], 11), (38, 0, [7], 11), (39, 0, [7], 11), (40, 0, [7], 11), (25, 0, [7], 12), (26, 0, [7], 12), (27, 0, [7], 12), (51, 0, [7], 13), (52, 0, [7], 13), (53, 0, [7], 13), (54, 0, [7], 13), (55, 0, [7], 13), (47, 0, [2, 3, 4, 9, 10, 15, 18], 15), (48, 0, [2, 3, 4, 9, 10, 15, 18], 15), (47, 0, [11], 16), (48, 0, [11], 16), (47, 0, [16, 17], 17), (48, 0, [16, 17], 17), (51, 0, [16, 17], 19), (52, 0, [16, 17], 19), (53, 0, [16, 17], 19), (54, 0, [16, 17], 19), (55, 0, [16, 17], 19), (47, 0, [7], 29), (48, 0, [7], 29), (58, 0, [2, 3, 4, 9, 10, 15, 18], 43), (58, 0, [14], 44), (58, 0, [11], 45), (58, 0, [16, 17], 47), (58, 0, [7], 54)],
  /- 35 -/ [(10, 3, [1], 0), (13, 3, [1], 0), (16, 0, [4], 1), (17, 0, [4], 1), (18, 0, [4], 2), (19, 0, [4], 2), (16, 0, [2, 3, 9, 10, 15, 18], 3), (17, 0, [2, 3, 9, 10, 15, 18], 3), (20, 0, [4], 4), (21, 0, [4], 4), (22, 0, [4], 4), (23, 0, [4], 4), (24, 0, [4], 4), (20, 0, [7], 5), (21, 0, [7], 5), (22, 0, [7], 5), (23, 0, [7], 5), (24, 0, [7], 5), (18, 0, [2, 3, 9, 10, 15, 18], 6), (19, 0, [2, 3, 9, 10, 15, 18], 6), (58, 0, [8], 8), (45, 0, [4], 9), (46, 0, [4], 9), (37, 0, [4], 10), (38, 0, [4], 10), (39, 0, [4], 10), (40, 0, [4], 10), (25, 0, [4], 11), (26, 0, [4], 11), (27, 0, [4], 11), (51, 0, [4], 12), (52, 0, [4], 12), (53, 0, [4], 12), (54, 0, [4], 12), (55, 0, [4], 12), (45, 0, [7], 14), (46, 0, [7], 14), (37, 0, [7], 15), (38, 0, [7], 15), (39, 0, [7], 15), (40, 0, [7], 15), (25, 0, [7], 16), (26, 0, [7], 16), (27, 0, [7], 16), (51, 0, [7], 17), (52, 0, [7], 17), (53, 0, [7], 17), (54, 0, [7], 17), (55, 0, [7], 17), (20, 0, [2, 3, 9, 10, 15, 18], 18), (21, 0, [2, 3, 9, 10, 15, 18], 18), (22, 0, [2, 3, 9, 10, 15, 18], 18), (23, 0, [2, 3, 9, 10, 15, 18], 18), (24, 0, [2, 3, 9, 10, 15, 18], 18), (47, 0, [4], 21), (48, 0, [4], 21), (47, 0, [11], 22), (48, 0, [11], 22), (47, 0, [16, 17], 23), (48, 0, [16, 17], 23), (51, 0, [16, 17], 25), (52, 0, [16, 17], 25), (53, 0, [16, 17], 25), (54, 0, [16, 17], 25), (55, 0, [16, 17], 25), (47, 0, [7], 35), (48, 0, [7], 35), (45, 0, [2, 3, 9, 10, 15, 18], 50), (46, 0, [2, 3, 9, 10, 15, 18], 50), (37, 0, [2, 3, 9, 10, 15, 18], 51), (38, 0, [2, 3, 9, 10, 15, 18], 51), (39, 0, [2, 3, 9, 10, 15, 18], 51), (40, 0, [2, 3, 9, 10, 15, 18], 51), (25, 0, [2, 3, 9, 10, 15, 18], 52), (26, 0, [2, 3, 9, 10, 15, 18], 52), (27, 0, [2, 3, 9, 10, 15, 18], 52), (51, 0, [2, 3, 9, 10, 15, 18], 53), (52, 0, [2, 3, 9, 10, 15, 18], 53), (53, 0, [2, 3, 9, 10, 15, 18], 53), (54, 0, [2, 3, 9, 10, 15, 18], 53), (55, 0, [2, 3, 9, 10, 15, 18], 53), (58, 0, [4], 54), (58, 0, [14], 55), (58, 0, [11], 56), (58, 0, [16, 17], 58), (58, 0, [7], 65), (47, 0, [2, 3, 9, 10, 15, 18], 67), (48, 0, [2, 3, 9, 10, 15, 18], 67), (58, 0, [2, 3, 9, 10, 15, 18], 86)],
  /- 36 -/ [(25, 2, [2, 3, 4, 7, 9, 10, 15, 18], 0), (30, 1, [2, 3, 4, 7, 9, 10, 11, 15, 18], 0), (31, 1, [2, 3, 4, 7, 9, 10, 11, 15, 18], 0)],
  /- 37 -/ [(28, 1, [2, 3, 4, 7, 9, 10, 11, 15, 18], 0), (29, 1, [2, 3, 4, 7, 9, 10, 11, 15, 18], 0), (32, 0, [12], 1), (33, 0, [12], 1), (34, 0, [12], 1), (35, 0, [12], 2), (36, 0, [12], 2), (32, 0, [18], 3), (33, 0, [18], 3), (34, 0, [18], 3), (32, 0, [13], 4), (33, 0, [13], 4), (34, 0, [13], 4), (58, 0, [12], 5), (58, 0, [8], 6), (35, 0, [18], 7), (36, 0, [18], 7), (35, 0, [13], 10), (36, 0, [13], 10), (58, 0, [18], 15), (58, 0, [13], 17)],
  /- 38 -/ [(17, 1, [2, 3, 4, 9, 10, 15, 18], 0), (51, 2, [2, 3, 4, 7, 9, 10, 15, 16, 17, 18], 0), (18, 0, [2, 3, 4, 9, 10, 15, 18], 0), (19, 0, [2, 3, 4, 9, 10, 15, 18], 0), (20, 0, [2, 3, 4, 9, 10, 15, 18], 2), (21, 0, [2, 3, 4, 9, 10, 15, 18], 2), (22, 0, [2, 3, 4, 9, 10, 15, 18], 2), (23, 0, [2, 3, 4, 9, 10, 15, 18], 2), (24, 0, [2, 3, 4, 9, 10, 15, 18], 2), (20, 0, [7], 3), (21, 0, [7], 3), (22, 0, [7], 3), (23, 0, [7], 3), (24, 0, [7], 3), (58, 0, [8], 4), (45, 0, [2, 3, 4, 9, 10, 15, 18], 5), (46, 0, [2, 3, 4, 9, 10, 15, 18], 5), (37, 0, [2, 3, 4, 9, 10, 15, 18], 6), (38, 0, [2, 3, 4, 9, 10, 15, 18], 6), (39, 0, [2, 3, 4, 9, 10, 15, 18], 6), (40, 0, [2, 3, 4, 9, 10, 15, 18], 6), (25, 0, [2, 3, 4, 9, 10, 15, 18], 7), (26, 0, [2, 3, 4, 9, 10, 15, 18], 7), (27, 0, [2, 3, 4, 9, 10, 15, 18], 7), (51, 0, [2, 3, 4, 9, 10, 15, 18], 8), (52, 0, [2, 3, 4, 9, 10, 15, 18], 8), (53, 0, [2, 3, 4, 9, 10, 15, 18], 8), (54, 0, [2, 3, 4, 9, 10, 15, 18], 8), (55, 0, [2, 3, 4, 9, 10, 15, 18], 8), (45, 0, [7], 10), (46, 0, [7], 10), (37, 0, [7], 11), (38, 0, [7], 11), (39, 0, [7], 11), (40, 0, [7], 11), (25, 0, [7], 12), (26, 0, [7], 12), (27, 0, [7], 12), (51, 0, [7], 13), (52, 0, [7], 13), (53, 0, [7], 13), (54, 0, [7], 13), (55, 0, [7], 13), (47, 0, [2, 3, 4, 9, 10, 15, 18], 15), (48, 0, [2, 3, 4, 9, 10, 15, 18], 15), (47, 0, [11], 16), (48, 0, [11], 16), (47, 0, [16, 17], 17), (48, 0, [16, 17], 17), (51, 0, [16, 17], 19), (52, 0, [16, 17], 19), (53, 0, [16, 17], 19), (54, 0, [16, 17], 19), (55, 0, [16, 17], 19), (47, 0, [7], 29), (48, 0, [7], 29), (58, 0, [2, 3, 4, 9, 10, 15, 18], 43), (58, 0, [14], 44), (58, 0, [11], 45), (58, 0, [16, 17], 47), (58, 0, [7], 54)],
  /- 39 -/ [(20, 2, [2, 3, 4, 7, 9, 10, 15, 18], 0), (58, 0, [2, 3, 4, 7, 9, 10, 15, 18], 0)],
  /- 40 -/ [(48, 2, [2, 3, 4, 7, 9, 10, 11, 15, 16, 17, 18], 0)],
  /- 41 -/ [(49, 1, [2, 3, 4, 7, 9, 10, 11, 15, 16, 17, 18], 0), (50, 1, [2, 3, 4, 7, 9, 10, 11, 15, 16, 17, 18], 0), (58, 0, [2, 3, 4, 7, 9, 10, 11, 15, 16, 17, 18], 0), (58, 0, [14], 1)],
  /- 42 -/ [(4, 4, [1], 0)],
  /- 43 -/ [(17, 2, [2, 3, 4, 9, 10, 15, 18], 0)],
  /- 44 -/ [(19, 2, [2, 3, 4, 9, 10, 15, 18], 0)],
  /- 45 -/ [(39, 2, [2, 3, 4, 7, 9, 10, 15, 18], 0), (40, 2, [2, 3, 4, 7, 9, 10, 15, 18], 0), (43, 1, [2, 3, 4, 7, 9, 10, 11, 15, 16, 17, 18], 0), (44, 1, [2, 3, 4, 7, 9, 10, 11, 15, 16, 17, 18], 0), (28, 0, [2, 3, 4, 7, 9, 10, 15, 18], 1), (29, 0, [2, 3, 4, 7, 9, 10, 15, 18], 1), (30, 0, [2, 3, 4, 7, 9, 10, 15, 18], 1), (31, 0, [2, 3, 4, 7, 9, 10, 15, 18], 1), (56, 0, [18], 2), (57, 0, [18], 2), (56, 0, [3, 15], 3), (57, 0, [3, 15], 3), (28, 0, [11], 6), (29, 0, [11], 6), (30, 0, [11], 6), (31, 0, [11], 6)],
  /- 46 -/ [(41, 1, [2, 3, 4, 7, 9, 10, 11, 15, 16, 17, 18], 0), (42, 1, [2, 3, 4, 7, 9, 10, 11, 15, 16, 17, 18], 0), (47, 0, [2, 3, 4, 7, 9, 10, 11, 15, 16, 17, 18], 0), (48, 0, [2, 3, 4, 7, 9, 10, 11, 15, 16, 17, 18], 0), (51, 0, [2, 3, 4, 7, 9, 10, 11, 15, 16, 17, 18], 1), (52, 0, [2, 3, 4, 7, 9, 10, 11, 15, 16, 17, 18], 1), (53, 0, [2, 3, 4, 7, 9, 10, 11, 15, 16, 17, 18], 1), (54, 0, [2, 3, 4, 7, 9, 10, 11, 15, 16, 17, 18], 1), (55, 0, [2, 3, 4, 7, 9, 10, 11, 15, 16, 17, 18], 1), (58, 0, [2, 3, 4, 7, 9, 10, 11, 15, 16, 17, 18], 2), (58, 0, [14], 3)],
  /- 47 -/ [(56, 1, [3, 15, 18], 0)],
  /- 48 -/ [(57, 1, [3, 15, 18], 0)],
  /- 49 -/ [(26, 2, [2, 3, 4, 7, 9, 10, 15, 18], 0), (30, 1, [2, 3, 4, 7, 9, 10, 11, 15, 18], 0), (31, 1, [2, 3, 4, 7, 9, 10, 11, 15, 18], 0)],
  /- 50 -/ [(27, 2, [2, 3, 4, 7, 9, 10, 15, 18], 0), (30, 1, [2, 3, 4, 7, 9, 10, 11, 15, 18], 0), (31, 1, [2, 3, 4, 7, 9, 10, 11, 15, 18], 0)],
  /- 51 -/ [(30, 1, [2, 3, 4, 7, 9, 10, 11, 15, 18], 0), (31, 1, [2, 3, 4, 7, 9, 10, 11, 15, 18], 0), (46, 2, [2, 3, 4, 7, 9, 10, 15, 18], 0)],
  /- 52 -/ [(37, 2, [2, 3, 4, 7, 9, 10, 15, 18], 0), (38, 2, [2, 3, 4, 7, 9, 10, 15, 18], 0), (43, 1, [2, 3, 4, 7, 9, 10, 11, 15, 16, 17, 18], 0), (44, 1, [2, 3, 4, 7, 9, 10, 11, 15, 16, 17, 18], 0), (28, 0, [2, 3, 4, 7, 9, 10, 15, 18], 1), (29, 0, [2, 3, 4, 7, 9, 10, 15, 18], 1), (30, 0, [2, 3, 4, 7, 9, 10, 15, 18], 1), (31, 0, [2, 3, 4, 7, 9, 10, 15, 18], 1), (56, 0, [18], 2), (57, 0, [18], 2), (56, 0, [3, 15], 3), (57, 0, [3, 15], 3), (28, 0, [11], 6), (29, 0, [11], 6), (30, 0, [11], 6), (31, 0, [11], 6)],
  /- 53 -/ [(52, 2, [2, 3, 4, 7, 9, 10, 15, 16, 17, 18], 0), (54, 2, [2, 3, 4, 7, 9, 10, 15, 16, 17, 18], 0), (16, 0, [4], 0), (17, 0, [4], 0), (18, 0, [4], 2), (19, 0, [4], 2), (16, 0, [2, 3, 9, 10, 15, 18], 3), (17, 0, [2, 3, 9, 10, 15, 18], 3), (20, 0, [4], 4), (21, 0, [4], 4), (22, 0, [4], 4), (23, 0, [4], 4), (24, 0, [4], 4), (20, 0, [7], 5), (21, 0, [7], 5), (22, 0, [7], 5), (23, 0, [7], 5), (24, 0, [7], 5), (18, 0, [2, 3, 9, 10, 15, 18], 6), (19, 0, [2, 3, 9, 10, 15, 18], 6), (58, 0, [8], 8), (45, 0, [4], 9), (46, 0, [4], 9), (37, 0, [4], 10), (38, 0, [4], 10), (39, 0, [4], 10), (40, 0, [4], 10), (25, 0, [4], 11), (26, 0, [4], 11), (27, 0, [4], 11), (51, 0, [4], 12), (52, 0, [4], 12), (53, 0, [4], 12), (54, 0, [4], 12), (55, 0, [4], 12), (45, 0, [7], 14), (46, 0, [7], 14), (37, 0, [7], 15), (38, 0, [7], 15), (39, 0, [7], 15), (40, 0, [7], 15), (25, 0, [7], 16), (26, 0, [7], 16), (27, 0, [7], 16), (51, 0, [7], 17), (52, 0, [7], 17), (53, 0, [7], 17), (54, 0, [7], 17), (55, 0, [7], 17), (20, 0, [2, 3, 9, 10, 15, 18], 18), (21, 0, [2, 3, 9, 10, 15, 18], 18), (22, 0, [2, 3, 9, 10, 15, 18], 18), (23, 0, [2, 3, 9, 10, 15, 18], 18), (24, 0, [2, 3, 9, 10, 15, 18], 18), (47, 0, [4], 21), (48, 0, [4], 21), (47, 0, [11], 22), (48, 0, [11], 22), (47, 0, [16, 17], 23), (48, 0, [16, 17], 23), (51, 0, [16, 17], 25), (52, 0, [16, 17], 25), (53, 0, [16, 17], 25), (54, 0, [16, 17], 25), (55, 0, [16, 17], 25), (47, 0, [7], 35), (48, 0, [7], 35), (45, 0, [2, 3, 9, 10, 15, 18], 50), (46, 0, [2, 3, 9, 10, 15, 18], 50), (37, 0, [2, 3, 9, 10, 15, 18], 51), (38, 0, [2, 3, 9, 10, 15, 18], 51), (39, 0, [2, 3, 9, 10, 15, 18], 51), (40, 0, [2, 3, 9, 10, 15, 18], 51), (25, 0, [2, 3, 9, 10, 15, 18], 52), (26, 0, [2, 3, 9, 10, 15, 18], 52), (27, 0, [2, 3, 9, 10, 15, 18], 52), (51, 0, [2, 3, 9, 10, 15, 18], 53), (52, 0, [2, 3, 9, 10, 15, 18], 53), (53, 0, [2, 3, 9, 10, 15, 18], 53), (54, 0, [2, 3, 9, 10, 15, 18], 53), (55, 0, [2, 3, 9, 10, 15, 18], 53), (58, 0, [4], 54), (58, 0, [14], 55), (58, 0, [11], 56), (58, 0, [16, 17], 58), (58, 0, [7], 65), (47, 0, [2, 3, 9, 10, 15, 18], 67), (48, 0, [2, 3, 9, 10, 15, 18], 67), (58, 0, [2, 3, 9, 10, 15, 18], 86)],
  /- 54 -/ [(53, 2, [2, 3, 4, 7, 9, 10, 15, 16, 17, 18], 0), (55, 2, [2, 3, 4, 7, 9, 10, 15, 16, 17, 18], 0)],
  /- 55 -/ [(2, 4, [1], 0)],
  /- 56 -/ [(5, 4, [1], 0), (17, 1, [2, 3, 4, 9, 10, 15, 18], 0), (18, 0, [2, 3, 4, 9, 10, 15, 18], 1), (19, 0, [2, 3, 4, 9, 10, 15, 18], 1), (20, 0, [2, 3, 4, 9, 10, 15, 18], 2), (21, 0, [2, 3, 4, 9, 10, 15, 18], 2), (22, 0, [2, 3, 4, 9, 10, 15, 18], 2), (23, 0, [2, 3, 4, 9, 10, 15, 18], 2), (24, 0, [2, 3, 4, 9, 10, 15, 18], 2), (20, 0, [7], 3), (21, 0, [7], 3), (22, 0, [7], 3), (23, 0, [7], 3), (24, 0, [7], 3), (58, 0, [8], 4), (45, 0, [2, 3, 4, 9, 10, 15, 18], 5), (46, 0, [2, 3, 4, 9, 10, 15, 18], 5), (37, 0, [2, 3, 4, 9, 10, 15, 18], 6), (38, 0, [2, 3, 4, 9, 10, 15, 18], 6), (39, 0, [2, 3, 4, 9, 10, 15, 18], 6), (40, 0, [2, 3, 4, 9, 10, 15, 18], 6), (25, 0, [2, 3, 4, 9, 10, 15, 18], 7), (26, 0, [2, 3, 4, 9, 10, 15, 18], 7), (27, 0, [2, 3, 4, 9, 10, 15, 18], 7), (51, 0, [2, 3, 4, 9, 10, 15, 18], 8), (52, 0, [2, 3, 4, 9, 10, 15, 18], 8), (53, 0, [2, 3, 4, 9, 10, 15, 18], 8), (54, 0, [2, 3, 4, 9, 10, 15, 18], 8), (55, 0, [2, 3, 4, 9, 10, 15, 18], 8), (45, 0, [7], 10), (46, 0, [7], 10), (37, 0, [7], 11), (38, 0, [7], 11), (39, 0, [7], 11), (40, 0, [7], 11), (25, 0, [7], 12), (26, 0, [7], 12), (27, 0, [7], 12), (51, 0, [7], 13), (52, 0, [7], 13), (53, 0, [7], 13), (54, 0, [7], 13), (55, 0, [7], 13), (47, 0, [2, 3, 4, 9, 10, 15, 18], 15), (48, 0, [2, 3, 4, 9, 10, 15, 18], 15), (47, 0, [11], 16), (48, 0, [11], 16), (47, 0, [16, 17], 17), (48, 0, [16, 17], 17), (51, 0, [16, 17], 19), (52, 0, [16, 17], 19), (53, 0, [16, 17], 19), (54, 0, [16, 17], 19), (55, 0, [16, 17], 19), (47, 0, [7], 29), (48, 0, [7], 29), (58, 0, [2, 3, 4, 9, 10, 15, 18], 43), (58, 0, [14], 44), (58, 0, [11], 45), (58, 0, [16, 17], 47), (58, 0, [7], 54)],
  /- 57 -/ [(1, 4, [1], 0)],
  /- 58 -/ [(6, 4, [1], 0), (17, 1, [2, 3, 4, 9, 10, 15, 18], 0), (18, 0, [2, 3, 4, 9, 10, 15, 18], 1), (19, 0, [2, 3, 4, 9, 10, 15, 18], 1), (20, 0, [2, 3, 4, 9, 10, 15, 18], 2), (21, 0, [2, 3, 4, 9, 10, 15, 18], 2), (22, 0, [2, 3, 4, 9, 10, 15, 18], 2), (23, 0, [2, 3, 4, 9, 10, 15, 18], 2), (24, 0, [2, 3, 4, 9, 10, 15, 18], 2), (20, 0, [7], 3), (21, 0, [7], 3), (22, 0, [7], 3), (23, 0, [7], 3), (24, 0, [7], 3), (58, 0, [8], 4), (45, 0, [2, 3, 4, 9, 10, 15, 18], 5), (46, 0, [2, 3, 4, 9, 10, 15, 18], 5), (37, 0, [2, 3, 4, 9, 10, 15, 18], 6), (38, 0, [2, 3, 4, 9, 10, 15, 18], 6), (39, 0, [2, 3, 4, 9, 10, 15, 18], 6), (40, 0, [2, 3, 4, 9, 10, 15, 18], 6), (25, 0, [2, 3, 4, 9, 10, 15, 18], 7), (26, 0, [2, 3, 4, 9, 10, 15, 18], 7), (27, 0, [2, 3, 4, 9, 10, 15, 18], 7), (51, 0, [2, 3, 4, 9, 10, 15, 18], 8), (52, 0, [2, 3, 4, 9, 10, 15, 18], 8), (53, 0, [2, 3, 4, 9, 10, 15, 18], 8), (54, 0, [2, 3, 4, 9, 10, 15, 18], 8), (55, 0, [2, 3, 4, 9, 10, 15, 18], 8), (45, 0, [7], 10), (46, 0, [7], 10), (37, 0, [7], 11), (38, 0, [7], 11), (39, 0, [7], 11), (40, 0, [7], 11), (25, 0, [7], 12), (26, 0, [7], 12), (27, 0, [7], 12), (51, 0, [7], 13), (52, 0, [7], 13), (53, 0, [7], 13), (54, 0, [7], 13), (55, 0, [7], 13), (47, 0, [2, 3, 4, 9, 10, 15, 18], 15), (48, 0, [2, 3, 4, 9, 10, 15, 18], 15), (47, 0, [11], 16), (48, 0, [11], 16), (47, 0, [16, 17], 17), (48, 0, [16, 17], 17), (51, 0, [16, 17], 19), (52, 0, [16, 17], 19), (53, 0, [16, 17], 19), (54, 0, [16, 17], 19), (55, 0, [16, 17], 19), (47, 0, [7], 29), (48, 0, [7], 29), (58, 0, [2, 3, 4, 9, 10, 15, 18], 43), (58, 0, [14], 44), (58, 0, [11], 45), (58, 0, [16, 17], 47), (58, 0, [7], 54)],
  /- 59 -/ [(3, 4, [1], 0), (7, 4, [1], 0), (16, 0, [4], 1), (17, 0, [4], 1), (18, 0, [4], 2), (19, 0, [4], 2), (16, 0, [2, 3, 9, 10, 15, 18], 3), (17, 0, [2, 3, 9, 10, 15, 18], 3), (20, 0, [4], 4), (21, 0, [4], 4), (22, 0, [4], 4), (23, 0, [4], 4), (24, 0, [4], 4), (20, 0, [7], 5), (21, 0, [7], 5), (22, 0, [7], 5), (23, 0, [7], 5), (24, 0, [7], 5), (18, 0, [2, 3, 9, 10, 15, 18], 6), (19, 0, [2, 3, 9, 10, 15, 18], 6), (58, 0, [8], 8), (45, 0, [4], 9), (46, 0, [4], 9), (37, 0, [4], 10), (38, 0, [4], 10), (39, 0, [4], 10), (40, 0, [4], 10), (25, 0, [4], 11), (26, 0, [4], 11), (27, 0, [4], 11), (51, 0, [4], 12), (52, 0, [4], 12), (53, 0, [4], 12), (54, 0, [4], 12), (55, 0, [4], 12), (45, 0, [7], 14), (46, 0, [7], 14), (37, 0, [7], 15), (38, 0, [7], 15), (39, 0, [7], 15), (40, 0, [7], 15), (25, 0, [7], 16), (26, 0, [7], 16), (27, 0, [7], 16), (51, 0, [7], 17), (52, 0, [7], 17), (53, 0, [7], 17), (54, 0, [7], 17), (55, 0, [7], 17), (20, 0, [2, 3, 9, 10, 15, 18], 18), (21, 0, [2, 3, 9, 10, 15, 18], 18), (22, 0, [2, 3, 9, 10, 15, 18], 18), (23, 0, [2, 3, 9, 10, 15, 18], 18), (24, 0, [2, 3, 9, 10, 15, 18], 18), (47, 0, [4], 21), (48, 0, [4], 21), (47, 0, [11], 22), (48, 0, [11], 22), (47, 0, [16, 17], 23), (48, 0, [16, 17], 23), (51, 0, [16, 17], 25), (52, 0, [16, 17], 25), (53, 0, [16, 17], 25), (54, 0, [16, 17], 25), (55, 0, [16, 17], 25), (47, 0, [7], 35), (48, 0, [7], 35), (45, 0, [2, 3, 9, 10, 15, 18], 50), (46, 0, [2, 3, 9, 10, 15, 18], 50), (37, 0, [2, 3, 9, 10, 15, 18], 51), (38, 0, [2, 3, 9, 10, 15, 18], 51), (39, 0, [2, 3, 9, 10, 15, 18], 51), (40, 0, [2, 3, 9, 10, 15, 18], 51), (25, 0, [2, 3, 9, 10, 15, 18], 52), (26, 0, [2, 3, 9, 10, 15, 18], 52), (27, 0, [2, 3, 9, 10, 15, 18], 52), (51, 0, [2, 3, 9, 10, 15, 18], 53), (52, 0, [2, 3, 9, 10, 15, 18], 53), (53, 0, [2, 3, 9, 10, 15, 18], 53), (54, 0, [2, 3, 9, 10, 15, 18], 53), (55, 0, [2, 3, 9, 10, 15, 18], 53), (58, 0, [4], 54), (58, 0, [14], 55), (58, 0, [11], 56), (58, 0, [16, 17], 58), (58, 0, [7], 65), (47, 0, [2, 3, 9, 10, 15, 18], 67), (48, 0, [2, 3, 9, 10, 15, 18], 67), (58, 0, [2, 3, 9, 10, 15, 18], 86)],
  /- 60 -/ [(9, 4, [1], 0)],
  /- 61 -/ [(14, 4, [1], 0), (17, 1, [2, 3, 4, 9, 10, 15, 18], 0), (18, 0, [2, 3, 4, 9, 10, 15, 18], 1), (19, 0, [2, 3, 4, 9, 10, 15, 18], 1), (20, 0, [2, 3, 4, 9, 10, 15, 18], 2), (21, 0, [2, 3, 4, 9, 10, 15, 18], 2), (22, 0, [2, 3, 4, 9, 10, 15, 18], 2), (23, 0, [2, 3, 4, 9, 10, 15, 18], 2), (24, 0, [2, 3, 4, 9, 10, 15, 18], 2), (20, 0, [7], 3), (21, 0, [7], 3), (22, 0, [7], 3), (23, 0, [7], 3), (24, 0, [7], 3), (58, 0, [8], 4), (45, 0, [2, 3, 4, 9, 10, 15, 18], 5), (46, 0, [2, 3, 4, 9, 10, 15, 18], 5), (37, 0, [2, 3, 4, 9, 10, 15, 18], 6), (38, 0, [2, 3, 4, 9, 10, 15, 18], 6), (39, 0, [2, 3, 4, 9, 10, 15, 18], 6), (40, 0, [2, 3, 4, 9, 10, 15, 18], 6), (25, 0, [2, 3, 4, 9, 10, 15, 18], 7), (26, 0, [2, 3, 4, 9, 10, 15, 18], 7), (27, 0, [2, 3, 4, 9, 10, 15, 18], 7), (51, 0, [2, 3, 4, 9, 10, 15, 18], 8), (52, 0, [2, 3, 4, 9, 10, 15, 18], 8), (53, 0, [2, 3, 4, 9, 10, 15, 18], 8), (54, 0, [2, 3, 4, 9, 10, 15, 18], 8), (55, 0, [2, 3, 4, 9, 10, 15, 18], 8), (45, 0, [7], 10), (46, 0, [7], 10), (37, 0, [7], 11), (38, 0, [7], 11), (39, 0, [7], 11), (40, 0, [7], 11), (25, 0, [7], 12), (26, 0, [7], 12), (27, 0, [7], 12), (51, 0, [7], 13), (52, 0, [7], 13), (53, 0, [7], 13), (54, 0, [7], 13), (55, 0, [7], 13), (47, 0, [2, 3, 4, 9, 10, 15, 18], 15), (48, 0, [2, 3, 4, 9, 10, 15, 18], 15), (47, 0, [11], 16), (48, 0, [11], 16), (47, 0, [16, 17], 17), (48, 0, [16, 17], 17), (51, 0, [16, 17], 19), (52, 0, [16, 17], 19), (53, 0, [16, 17], 19), (54, 0, [16, 17], 19), (55, 0, [16, 17], 19), (47, 0, [7], 29), (48, 0, [7], 29), (58, 0, [2, 3, 4, 9, 10, 15, 18], 43), (58, 0, [14], 44), (58, 0, [11], 45), (58, 0, [16, 17], 47), (58, 0, [7], 54)],
  /- 62 -/ [(11, 4, [1], 0), (15, 4, [1], 0), (16, 0, [4], 1), (17, 0, [4], 1), (18, 0, [4], 2), (19, 0, [4], 2), (16, 0, [2, 3, 9, 10, 15, 18], 3), (17, 0, [2, 3, 9, 10, 15, 18], 3), (20, 0, [4], 4), (21, 0, [4], 4), (22, 0, [4], 4), (23, 0, [4], 4), (24, 0, [4], 4), (20, 0, [7], 5), (21, 0, [7], 5), (22, 0, [7], 5), (23, 0, [7], 5), (24, 0, [7], 5), (18, 0, [2, 3, 9, 10, 15, 18], 6), (19, 0, [2, 3, 9, 10, 15, 18], 6), (58, 0, [8], 8), (45, 0, [4], 9), (46, 0, [4], 9), (37, 0, [4], 10), (38, 0, [4], 10), (39, 0, [4], 10), (40, 0, [4], 10), (25, 0, [4], 11), (26, 0, [4], 11), (27, 0, [4], 11), (51, 0, [4], 12), (52, 0, [4], 12), (53, 0, [4], 12), (54, 0, [4], 12), (55, 0, [4], 12), (45, 0, [7], 14), (46, 0, [7], 14), (37, 0, [7], 15), (38, 0, [7], 15), (39, 0, [7], 15), (40, 0, [7], 15), (25, 0, [7], 16), (26, 0, [7], 16), (27, 0, [7], 16), (51, 0, [7], 17), (52, 0, [7], 17), (53, 0, [7], 17), (54, 0, [7], 17), (55, 0, [7], 17), (20, 0, [2, 3, 9, 10, 15, 18], 18), (21, 0, [2, 3, 9, 10, 15, 18], 18), (22, 0, [2, 3, 9, 10, 15, 18], 18), (23, 0, [2, 3, 9, 10, 15, 18], 18), (24, 0, [2, 3, 9, 10, 15, 18], 18), (47, 0, [4], 21), (48, 0, [4], 21), (47, 0, [11], 22), (48, 0, [11], 22), (47, 0, [16, 17], 23), (48, 0, [16, 17], 23), (51, 0, [16, 17], 25), (52, 0, [16, 17], 25), (53, 0, [16, 17], 25), (54, 0, [16, 17], 25), (55, 0, [16, 17], 25), (47, 0, [7], 35), (48, 0, [7], 35), (45, 0, [2, 3, 9, 10, 15, 18], 50), (46, 0, [2, 3, 9, 10, 15, 18], 50), (37, 0, [2, 3, 9, 10, 15, 18], 51), (38, 0, [2, 3, 9, 10, 15, 18], 51), (39, 0, [2, 3, 9, 10, 15, 18], 51), (40, 0, [2, 3, 9, 10, 15, 18], 51), (25, 0, [2, 3, 9, 10, 15, 18], 52), (26, 0, [2, 3, 9, 10, 15, 18], 52), (27, 0, [2, 3, 9, 10, 15, 18], 52), (51, 0, [2, 3, 9, 10, 15, 18], 53), (52, 0, [2, 3, 9, 10, 15, 18], 53), (53, 0, [2, 3, 9, 10, 15, 18], 53), (54, 0, [2, 3, 9, 10, 15, 18], 53), (55, 0, [2, 3, 9, 10, 15, 18], 53), (58, 0, [4], 54), (58, 0, [14], 55), (58, 0, [11], 56), (58, 0, [16, 17], 58), (58, 0, [7], 65), (47, 0, [2, 3, 9, 10, 15, 18], 67), (48, 0, [2, 3, 9, 10, 15, 18], 67), (58, 0, [2, 3, 9, 10, 15, 18], 86)],
  /- 63 -/ [(12, 4, [1], 0)],
  /- 64 -/ [(10, 4, [1], 0)],
  /- 65 -/ [(13, 4, [1], 0), (17, 1, [2, 3, 4, 9, 10, 15, 18], 0), (18, 0, [2, 3, 4, 9, 10, 15, 18], 1), (19, 0, [2, 3, 4, 9, 10, 15, 18], 1), (20, 0, [2, 3, 4, 9, 10, 15, 18], 2), (21, 0, [2, 3, 4, 9, 10, 15, 18], 2), (22, 0, [2, 3, 4, 9, 10, 15, 18], 2), (23, 0, [2, 3, 4, 9, 10, 15, 18], 2), (24, 0, [2, 3, 4, 9, 10, 15, 18], 2), (20, 0, [7], 3), (21, 0, [7], 3), (22, 0, [7], 3), (23, 0, [7], 3), (24, 0, [7], 3), (58, 0, [8], 4), (45, 0, [2, 3, 4, 9, 10, 15, 18], 5), (46, 0, [2, 3, 4, 9, 10, 15, 18], 5), (37, 0, [2, 3, 4, 9, 10, 15, 18], 6), (38, 0, [2, 3, 4, 9, 10, 15, 18], 6), (39, 0, [2, 3, 4, 9, 10, 15, 18], 6), (40, 0, [2, 3, 4, 9, 10, 15, 18], 6), (25, 0, [2, 3, 4, 9, 10, 15, 18], 7), (26, 0, [2, 3, 4, 9, 10, 15, 18], 7), (27, 0, [2, 3, 4, 9, 10, 15, 18], 7), (51, 0, [2, 3, 4, 9, 10, 15, 18], 8), (52, 0, [2, 3, 4, 9, 10, 15, 18], 8), (53, 0, [2, 3, 4, 9, 10, 15, 18], 8), (54, 0, [2, 3, 4, 9, 10, 15, 18], 8), (55, 0, [2, 3, 4, 9, 10, 15, 18], 8), (45, 0, [7], 10), (46, 0, [7], 10), (37, 0, [7], 11), (38, 0, [7], 11), (39, 0, [7], 11), (40, 0, [7], 11), (25, 0, [7], 12), (26, 0, [7], 12), (27, 0, [7], 12), (51, 0, [7], 13), (52, 0, [7], 13), (53, 0, [7], 13), (54, 0, [7], 13), (55, 0, [7], 13), (47, 0, [2, 3, 4, 9, 10, 15, 18], 15), (48, 0, [2, 3, 4, 9, 10, 15, 18], 15), (47, 0, [11], 16), (48, 0, [11], 16), (47, 0, [16, 17], 17), (48, 0, [16, 17], 17), (51, 0, [16, 17], 19), (52, 0, [16, 17], 19), (53, 0, [16, 17], 19), (54, 0, [16, 17], 19), (55, 0, [16, 17], 19), (47, 0, [7], 29), (48, 0, [7], 29), (58, 0, [2, 3, 4, 9, 10, 15, 18], 43), (58, 0, [14], 44), (58, 0, [11], 45), (58, 0, [16, 17], 47), (58, 0, [7], 54)],
  /- 66 -/ [(30, 2, [2, 3, 4, 7, 9, 10, 11, 15, 18], 0), (31, 2, [2, 3, 4, 7, 9, 10, 11, 15, 18], 0), (32, 0, [12], 1), (33, 0, [12], 1), (34, 0, [12], 1), (35, 0, [12], 2), (36, 0, [12], 2), (32, 0, [18], 3), (33, 0, [18], 3), (34, 0, [18], 3), (32, 0, [13], 4), (33, 0, [13], 4), (34, 0, [13], 4), (58, 0, [12], 5), (58, 0, [8], 6), (35, 0, [18], 7), (36, 0, [18], 7), (35, 0, [13], 10), (36, 0, [13], 10), (58, 0, [18], 15), (58, 0, [13], 17)],
  /- 67 -/ [(35, 1, [12, 13, 18], 0), (36, 1, [12, 13, 18], 0)],
  /- 68 -/ [(28, 2, [2, 3, 4, 7, 9, 10, 11, 15, 18], 0)],
  /- 69 -/ [(29, 2, [2, 3, 4, 7, 9, 10, 11, 15, 18], 0), (33, 1, [12, 13, 18], 0), (34, 1, [12, 13, 18], 0), (35, 0, [12, 13, 18], 1), (36, 0, [12, 13, 18], 1), (58, 0, [12, 13, 18], 3), (58, 0, [8], 4)],
  /- 70 -/ [(32, 1, [12, 13, 18], 0)],
  /- 71 -/ [(58, 1, [8, 12, 13, 18], 0)],
  /- 72 -/ [(51, 3, [2, 3, 4, 7, 9, 10, 15, 16, 17, 18], 0)],
  /- 73 -/ [(20, 3, [2, 3, 4, 7, 9, 10, 15, 18], 0)],
  /- 74 -/ [(58, 1, [2, 3, 4, 7, 9, 10, 15, 18], 0)],
  /- 75 -/ [(49, 2, [2, 3, 4, 7, 9, 10, 11, 15, 16, 17, 18], 0), (50, 2, [2, 3, 4, 7, 9, 10, 11, 15, 16, 17, 18], 0)],
  /- 76 -/ [(58, 1, [2, 3, 4, 7, 9, 10, 11, 14, 15, 16, 17, 18], 0)],
  /- 77 -/ [(30, 1, [2, 3, 4, 7, 9, 10, 11, 15, 18], 0), (31, 1, [2, 3, 4, 7, 9, 10, 11, 15, 18], 0), (40, 3, [2, 3, 4, 7, 9, 10, 15, 18], 0)],
  /- 78 -/ [(43, 2, [2, 3, 4, 7, 9, 10, 11, 15, 16, 17, 18], 0), (44, 2, [2, 3, 4, 7, 9, 10, 11, 15, 16, 17, 18], 0), (47, 0, [2, 3, 4, 7, 9, 10, 11, 15, 16, 17, 18], 0), (48, 0, [2, 3, 4, 7, 9, 10, 11, 15, 16, 17, 18], 0), (51, 0, [2, 3, 4, 7, 9, 10, 11, 15, 16, 17, 18], 1), (52, 0, [2, 3, 4, 7, 9, 10, 11, 15, 16, 17, 18], 1), (53, 0, [2, 3, 4, 7, 9, 10, 11, 15, 16, 17, 18], 1), (54, 0, [2, 3, 4, 7, 9, 10, 11, 15, 16, 17, 18], 1), (55, 0, [2, 3, 4, 7, 9, 10, 11, 15, 16, 17, 18], 1), (58, 0, [2, 3, 4, 7, 9, 10, 11, 15, 16, 17, 18], 2), (58, 0, [14], 3)],
  /- 79 -/ [(51, 1, [2, 3, 4, 7, 9, 10, 11, 15, 16, 17, 18], 0), (16, 0, [4], 0), (17, 0, [4], 0), (18, 0, [4], 1), (19, 0, [4], 1), (16, 0, [2, 3, 9, 10, 15, 18], 2), (17, 0, [2, 3, 9, 10, 15, 18], 2), (20, 0, [4], 3), (21, 0, [4], 3), (22, 0, [4], 3), (23, 0, [4], 3), (24, 0, [4], 3), (20, 0, [7], 4), (21, 0, [7], 4), (22, 0, [7], 4), (23, 0, [7], 4), (24, 0, [7], 4), (18, 0, [2, 3, 9, 10, 15, 18], 5), (19, 0, [2, 3, 9, 10, 15, 18], 5), (58, 0, [8], 7), (45, 0, [4], 8), (46, 0, [4], 8), (37, 0, [4], 9), (38, 0, [4], 9), (39, 0, [4], 9), (40, 0, [4], 9), (25, 0, [4], 10), (26, 0, [4], 10), (27, 0, [4], 10), (51, 0, [4], 11), (52, 0, [4], 11), (53, 0, [4], 11), (54, 0, [4], 11), (55, 0, [4], 11), (45, 0, [7], 13), (46, 0, [7], 13), (37, 0, [7], 14), (38, 0, [7], 14), (39, 0, [7], 14), (40, 0, [7], 14), (25, 0, [7], 15), (26, 0, [7], 15), (27, 0, [7], 15), (51, 0, [7], 16), (52, 0, [7], 16), (53, 0, [7], 16), (54, 0, [7], 16), (55, 0, [7], 16), (20, 0, [2, 3, 9, 10, 15, 18], 17), (21, 0, [2, 3, 9, 10, 15, 18], 17), (22, 0, [2, 3, 9, 10, 15, 18], 17), (23, 0, [2, 3, 9, 10, 15, 18], 17), (24, 0, [2, 3, 9, 10, 15, 18], 17), (47, 0, [4], 20), (48, 0, [4], 20), (47, 0, [11], 21), (48, 0, [11], 21), (47, 0, [16, 17], 22), (48, 0, [16, 17], 22), (51, 0, [16, 17], 24), (52, 0, [16, 17], 24), (53, 0, [16, 17], 24), (54, 0, [16, 17], 24), (55, 0, [16, 17], 24), (47, 0, [7], 34), (48, 0, [7], 34), (45, 0, [2, 3, 9, 10, 15, 18], 49), (46, 0, [2, 3, 9, 10, 15, 18], 49), (37, 0, [2, 3, 9, 10, 15, 18], 50), (38, 0, [2, 3, 9, 10, 15, 18], 50), (39, 0, [2, 3, 9, 10, 15, 18], 50), (40, 0, [2, 3, 9, 10, 15, 18], 50), (25, 0, [2, 3, 9, 10, 15, 18], 51), (26, 0, [2, 3, 9, 10, 15, 18], 51), (27, 0, [2, 3, 9, 10, 15, 18], 51), (51, 0, [2, 3, 9, 10, 15, 18], 52), (52, 0, [2, 3, 9, 10, 15, 18], 52), (53, 0, [2, 3, 9, 10, 15, 18], 52), (54, 0, [2, 3, 9, 10, 15, 18], 52), (55, 0, [2, 3, 9, 10, 15, 18], 52), (58, 0, [4], 53), (58, 0, [14], 54), (58, 0, [11], 55), (58, 0, [16, 17], 57), (58, 0, [7], 64), (47, 0, [2, 3, 9, 10, 15, 18], 66), (48, 0, [2, 3, 9, 10, 15, 18], 66), (58, 0, [2, 3, 9, 10, 15, 18], 85)],
  /- 80 -/ [(47, 1, [2, 3, 4, 7, 9, 10, 11, 15, 16, 17, 18], 0), (48, 1, [2, 3, 4, 7, 9, 10, 11, 15, 16, 17, 18], 0), (49, 0, [2, 3, 4, 7, 9, 10, 11, 15, 16, 17, 18], 1), (50, 0, [2, 3, 4, 7, 9, 10, 11, 15, 16, 17, 18], 1)],
  /- 81 -/ [(42, 2, [2, 3, 4, 7, 9, 10, 11, 15, 16, 17, 18], 0)],
  /- 82 -/ [(41, 2, [2, 3, 4, 7, 9, 10, 11, 15, 16, 17, 18], 0)],
  /- 83 -/ [(52, 1, [2, 3, 4, 7, 9, 10, 11, 15, 16, 17, 18], 0), (53, 1, [2, 3, 4, 7, 9, 10, 11, 15, 16, 17, 18], 0), (54, 1, [2, 3, 4, 7, 9, 10, 11, 15, 16, 17, 18], 0), (55, 1, [2, 3, 4, 7, 9, 10, 11, 15, 16, 17, 18], 0), (58, 0, [3], 1)],
  /- 84 -/ [(30, 1, [2, 3, 4, 7, 9, 10, 11, 15, 18], 0), (31, 1, [2, 3, 4, 7, 9, 10, 11, 15, 18], 0), (38, 3, [2, 3, 4, 7, 9, 10, 15, 18], 0)],
  /- 85 -/ [(54, 3, [2, 3, 4, 7, 9, 10, 15, 16, 17, 18], 0)],
  /- 86 -/ [(17, 1, [2, 3, 4, 9, 10, 15, 18], 0), (52, 3, [2, 3, 4, 7, 9, 10, 15, 16, 17, 18], 0), (18, 0, [2, 3, 4, 9, 10, 15, 18], 0), (19, 0, [2, 3, 4, 9, 10, 15, 18], 0), (20, 0, [2, 3, 4, 9, 10, 15, 18], 2), (21, 0, [2, 3, 4, 9, 10, 15, 18], 2), (22, 0, [2, 3, 4, 9, 10, 15, 18], 2), (23, 0, [2, 3, 4, 9, 10, 15, 18], 2), (24, 0, [2, 3, 4, 9, 10, 15, 18], 2), (20, 0, [7], 3), (21, 0, [7], 3), (22, 0, [7], 3), (23, 0, [7], 3), (24, 0, [7], 3), (58, 0, [8], 4), (45, 0, [2, 3, 4, 9, 10, 15, 18], 5), (46, 0, [2, 3, 4, 9, 10, 15, 18], 5), (37, 0, [2, 3, 4, 9, 10, 15, 18], 6), (38, 0, [2, 3, 4, 9, 10, 15, 18], 6), (39, 0, [2, 3, 4, 9, 10, 15, 18], 6), (40, 0, [2, 3, 4, 9, 10, 15, 18], 6), (25, 0, [2, 3, 4, 9, 10, 15, 18], 7), (26, 0, [2, 3, 4, 9, 10, 15, 18], 7), (27, 0, [2, 3, 4, 9, 10, 15, 18], 7), (51, 0, [2, 3, 4, 9, 10, 15, 18], 8), (52, 0, [2, 3, 4, 9, 10, 15, 18], 8), (53, 0, [2, 3, 4, 9, 10, 15, 18], 8), (54, 0, [2, 3, 4, 9, 10, 15, 18], 8), (55, 0, [2, 3, 4, 9, 10, 15, 18], 8), (45, 0, [7], 10), (46, 0, [7], 10), (37, 0, [7], 11), (38, 0, [7], 11), (39, 0, [7], 11), (40, 0, [7], 11), (25, 0, [7], 12), (26, 0, [7], 12), (27, 0, [7], 12), (51, 0, [7], 13), (52, 0, [7], 13), (53, 0, [7], 13), (54, 0, [7], 13), (55, 0, [7], 13), (47, 0, [2, 3, 4, 9, 10, 15, 18], 15), (48, 0, [2, 3, 4, 9, 10, 15, 18], 15), (47, 0, [11], 16), (48, 0, [11], 16), (47, 0, [16, 17], 17), (48, 0, [16, 17], 17), (51, 0, [16, 17], 19), (52, 0, [16, 17], 19), (53, 0, [16, 17], 19), (54, 0, [16, 17], 19), (55, 0, [16, 17], 19), (47, 0, [7], 29), (48, 0, [7], 29), (58, 0, [2, 3, 4, 9, 10, 15, 18], 43), (58, 0, [14], 44), (58, 0, [11], 45), (58, 0, [16, 17], 47), (58, 0, [7], 54)],
  /- 87 -/ [(53, 3, [2, 3, 4, 7, 9, 10, 15, 16, 17, 18], 0), (55, 3, [2, 3, 4, 7, 9, 10, 15, 16, 17, 18], 0), (16, 0, [4], 0), (17, 0, [4], 0), (18, 0, [4], 2), (19, 0, [4], 2), (16, 0, [2, 3, 9, 10, 15, 18], 3), (17, 0, [2, 3, 9, 10, 15, 18], 3), (20, 0, [4], 4), (21, 0, [4], 4), (22, 0, [4], 4), (23, 0, [4], 4), (24, 0, [4], 4), (20, 0, [7], 5), (21, 0, [7], 5), (22, 0, [7], 5), (23, 0, [7], 5), (24, 0, [7], 5), (18, 0, [2, 3, 9, 10, 15, 18], 6), (19, 0, [2, 3, 9, 10, 15, 18], 6), (58, 0, [8], 8), (45, 0, [4], 9), (46, 0, [4], 9), (37, 0, [4], 10), (38, 0, [4], 10), (39, 0, [4], 10), (40, 0, [4], 10), (25, 0, [4], 11), (26, 0, [4], 11), (27, 0, [4], 11), (51, 0, [4], 12), (52, 0, [4], 12), (53, 0, [4], 12), (54, 0, [4], 12), (55, 0, [4], 12), (45, 0, [7], 14), (46, 0, [7], 14), (37, 0, [7], 15), (38, 0, [7], 15), (39, 0, [7], 15), (40, 0, [7], 15), (25, 0, [7], 16), (26, 0, [7], 16), (27, 0, [7], 16), (51, 0, [7], 17), (52, 0, [7], 17), (53, 0, [7], 17), (54, 0, [7], 17), (55, 0, [7], 17), (20, 0, [2, 3, 9, 10, 15, 18], 18), (21, 0, [2, 3, 9, 10, 15, 18], 18), (22, 0, [2, 3, 9, 10, 15, 18], 18), (23, 0, [2, 3, 9, 10, 15, 18], 18), (24, 0, [2, 3, 9, 10, 15, 18], 18), (47, 0, [4], 21), (48, 0, [4], 21), (47, 0, [11], 22), (48, 0, [11], 22), (47, 0, [16, 17], 23), (48, 0, [16, 17], 23), (51, 0, [16, 17], 25), (52, 0, [16, 17], 25), (53, 0, [16, 17], 25), (54, 0, [16, 17], 25), (55, 0, [16, 17], 25), (47, 0, [7], 35), (48, 0, [7], 35), (45, 0, [2, 3, 9, 10, 15, 18], 50), (46, 0, [2, 3, 9, 10, 15, 18], 50), (37, 0, [2, 3, 9, 10, 15, 18], 51), (38, 0, [2, 3, 9, 10, 15, 18], 51), (39, 0, [2, 3, 9, 10, 15, 18], 51), (40, 0, [2, 3, 9, 10, 15, 18], 51), (25, 0, [2, 3, 9, 10, 15, 18], 52), (26, 0, [2, 3, 9, 10, 15, 18], 52), (27, 0, [2, 3, 9, 10, 15, 18], 52), (51, 0, [2, 3, 9, 10, 15, 18], 53), (52, 0, [2, 3, 9, 10, 15, 18], 53), (53, 0, [2, 3, 9, 10, 15, 18], 53), (54, 0, [2, 3, 9, 10, 15, 18], 53), (55, 0, [2, 3, 9, 10, 15, 18], 53), (58, 0, [4], 54), (58, 0, [14], 55), (58, 0, [11], 56), (58, 0, [16, 17], 58), (58, 0, [7], 65), (47, 0, [2, 3, 9, 10, 15, 18], 67), (48, 0, [2, 3, 9, 10, 15, 18], 67), (58, 0, [2, 3, 9, 10, 15, 18], 86)],
  /- 88 -/ [(5, 5, [1], 0)],
  /- 89 -/ [(6, 5, [1], 0)],
  /- 90 -/ [(3, 5, [1], 0)],
  /- 91 -/ [(7, 5, [1], 0), (17, 1, [2, 3, 4, 9, 10, 15, 18], 0), (18, 0, [2, 3, 4, 9, 10, 15, 18], 1), (19, 0, [2, 3, 4, 9, 10, 15, 18], 1), (20, 0, [2, 3, 4, 9, 10, 15, 18], 2), (21, 0, [2, 3, 4, 9, 10, 15, 18], 2), (22, 0, [2, 3, 4, 9, 10, 15, 18], 2), (23, 0, [2, 3, 4, 9, 10, 15, 18], 2), (24, 0, [2, 3, 4, 9, 10, 15, 18], 2), (20, 0, [7], 3), (21, 0, [7], 3), (22, 0, [7], 3), (23, 0, [7], 3), (24, 0, [7], 3), (58, 0, [8], 4), (45, 0, [2, 3, 4, 9, 10, 15, 18], 5), (46, 0, [2, 3, 4, 9, 10, 15, 18], 5), (37, 0, [2, 3, 4, 9, 10, 15, 18], 6), (38, 0, [2, 3, 4, 9, 10, 15, 18], 6), (39, 0, [2, 3, 4, 9, 10, 15, 18], 6), (40, 0, [2, 3, 4, 9, 10, 15, 18], 6), (25, 0, [2, 3, 4, 9, 10, 15, 18], 7), (26, 0, [2, 3, 4, 9, 10, 15, 18], 7), (27, 0, [2, 3, 4, 9, 10, 15, 18], 7), (51, 0, [2, 3, 4, 9, 10, 15, 18], 8), (52, 0, [2, 3, 4, 9, 10, 15, 18], 8), (53, 0, [2, 3, 4, 9, 10, 15, 18], 8), (54, 0, [2, 3, 4, 9, 10, 15, 18], 8), (55, 0, [2, 3, 4, 9, 10, 15, 18], 8), (45, 0, [7], 10), (46, 0, [7], 10), (37, 0, [7], 11), (38, 0, [7], 11), (39, 0, [7], 11), (40, 0, [7], 11), (25, 0, [7], 12), (26, 0, [7], 12), (27, 0, [7], 12), (51, 0, [7], 13), (52, 0, [7], 13), (53, 0, [7], 13), (54, 0, [7], 13), (55, 0, [7], 13), (47, 0, [2, 3, 4, 9, 10, 15, 18], 15), (48, 0, [2, 3, 4, 9, 10, 15, 18], 15), (47, 0, [11], 16), (48, 0, [11], 16), (47, 0, [16, 17], 17), (48, 0, [16, 17], 17), (51, 0, [16, 17], 19), (52, 0, [16, 17], 19), (53, 0, [16, 17], 19), (54, 0, [16, 17], 19), (55, 0, [16, 17], 19), (47, 0, [7], 29), (48, 0, [7], 29), (58, 0, [2, 3, 4, 9, 10, 15, 18], 43), (58, 0, [14], 44), (58, 0, [11], 45), (58, 0, [16, 17], 47), (58, 0, [7], 54)],
  /- 92 -/ [(14, 5, [1], 0)],
  /- 93 -/ [(11, 5, [1], 0)],
  /- 94 -/ [(15, 5, [1], 0), (17, 1, [2, 3, 4, 9, 10, 15, 18], 0), (18, 0, [2, 3, 4, 9, 10, 15, 18], 1), (19, 0, [2, 3, 4, 9, 10, 15, 18], 1), (20, 0, [2, 3, 4, 9, 10, 15, 18], 2), (21, 0, [2, 3, 4, 9, 10, 15, 18], 2), (22, 0, [2, 3, 4, 9, 10, 15, 18], 2), (23, 0, [2, 3, 4, 9, 10, 15, 18], 2), (24, 0, [2, 3, 4, 9, 10, 15, 18], 2), (20, 0, [7], 3), (21, 0, [7], 3), (22, 0, [7], 3), (23, 0, [7], 3), (24, 0, [7], 3), (58, 0, [8], 4), (45, 0, [2, 3, 4, 9, 10, 15, 18], 5), (46, 0, [2, 3, 4, 9, 10, 15, 18], 5), (37, 0, [2, 3, 4, 9, 10, 15, 18], 6), (38, 0, [2, 3, 4, 9, 10, 15, 18], 6), (39, 0, [2, 3, 4, 9, 10, 15, 18], 6), (40, 0, [2, 3, 4, 9, 10, 15, 18], 6), (25, 0, [2, 3, 4, 9, 10, 15, 18], 7), (26, 0, [2, 3, 4, 9, 10, 15, 18], 7), (27, 0, [2, 3, 4, 9, 10, 15, 18], 7), (51, 0, [2, 3, 4, 9, 10, 15, 18], 8), (52, 0, [2, 3, 4, 9, 10, 15, 18], 8), (53, 0, [2, 3, 4, 9, 10, 15, 18], 8), (54, 0, [2, 3, 4, 9, 10, 15, 18], 8), (55, 0, [2, 3, 4, 9, 10, 15, 18], 8), (45, 0, [7], 10), (46, 0, [7], 10), (37, 0, [7], 11), (38, 0, [7], 11), (39, 0, [7], 11), (40, 0, [7], 11), (25, 0, [7], 12), (26, 0, [7], 12), (27, 0, [7], 12), (51, 0, [7], 13), (52, 0, [7], 13), (53, 0, [7], 13), (54, 0, [7], 13), (55, 0, [7], 13), (47, 0, [2, 3, 4, 9, 10, 15, 18], 15), (48, 0, [2, 3, 4, 9, 10, 15, 18], 15), (47, 0, [11], 16), (48, 0, [11], 16), (47, 0, [16, 17], 17), (48, 0, [16, 17], 17), (51, 0, [16, 17], 19), (52, 0, [16, 17], 19), (53, 0, [16, 17], 19), (54, 0, [16, 17], 19), (55, 0, [16, 17], 19), (47, 0, [7], 29), (48, 0, [7], 29), (58, 0, [2, 3, 4, 9, 10, 15, 18], 43), (58, 0, [14], 44), (58, 0, [11], 45), (58, 0, [16, 17], 47), (58, 0, [7], 54)],
  /- 95 -/ [(13, 5, [1], 0)],
  /- 96 -/ [(30, 3, [2, 3, 4, 7, 9, 10, 11, 15, 18], 0)],
  /- 97 -/ [(31, 3, [2, 3, 4, 7, 9, 10, 11, 15, 18], 0), (33, 1, [12, 13, 18], 0), (34, 1, [12, 13, 18], 0), (35, 0, [12, 13, 18], 1), (36, 0, [12, 13, 18], 1), (58, 0, [12, 13, 18], 3), (58, 0, [8], 4)],
  /- 98 -/ [(36, 2, [12, 13, 18], 0), (58, 0, [12, 13, 18], 0)],
  /- 99 -/ [(29, 3, [2, 3, 4, 7, 9, 10, 11, 15, 18], 0)],
  /- 100 -/ [(33, 2, [12, 13, 18], 0)],
  /- 101 -/ [(34, 2, [12, 13, 18], 0), (35, 0, [12, 13, 18], 0), (36, 0, [12, 13, 18], 0), (58, 0, [12, 13, 18], 1), (58, 0, [8], 2)],
  /- 102 -/ [(50, 3, [2, 3, 4, 7, 9, 10, 11, 15, 16, 17, 18], 0), (58, 0, [2, 3, 4, 7, 9, 10, 11, 15, 16, 17, 18], 0)],
  /- 103 -/ [(44, 3, [2, 3, 4, 7, 9, 10, 11, 15, 16, 17, 18], 0)],
  /- 104 -/ [(43, 3, [2, 3, 4, 7, 9, 10, 11, 15, 16, 17, 18], 0)],
  /- 105 -/ [(17, 1, [2, 3, 4, 9, 10, 15, 18], 0), (51, 2, [2, 3, 4, 7, 9, 10, 11, 15, 16, 17, 18], 0), (18, 0, [2, 3, 4, 9, 10, 15, 18], 0), (19, 0, [2, 3, 4, 9, 10, 15, 18], 0), (20, 0, [2, 3, 4, 9, 10, 15, 18], 2), (21, 0, [2, 3, 4, 9, 10, 15, 18], 2), (22, 0, [2, 3, 4, 9, 10, 15, 18], 2), (23, 0, [2, 3, 4, 9, 10, 15, 18], 2), (24, 0, [2, 3, 4, 9, 10, 15, 18], 2), (20, 0, [7], 3), (21, 0, [7], 3), (22, 0, [7], 3), (23, 0, [7], 3), (24, 0, [7], 3), (58, 0, [8], 4), (45, 0, [2, 3, 4, 9, 10, 15, 18], 5), (46, 0, [2, 3, 4, 9, 10, 15, 18], 5), (37, 0, [2, 3, 4, 9, 10, 15, 18], 6), (38, 0, [2, 3, 4, 9, 10, 15, 18], 6), (39, 0, [2, 3, 4, 9, 10, 15, 18], 6), (40, 0, [2, 3, 4, 9, 10, 15, 18], 6), (25, 0, [2, 3, 4, 9, 10, 15, 18], 7), (26, 0, [2, 3, 4, 9, 10, 15, 18], 7), (27, 0, [2, 3, 4, 9, 10, 15, 18], 7), (51, 0, [2, 3, 4, 9, 10, 15, 18], 8), (52, 0, [2, 3, 4, 9, 10, 15, 18], 8), (53, 0, [2, 3, 4, 9, 10, 15, 18], 8), (54, 0, [2, 3, 4, 9, 10, 15, 18], 8), (55, 0, [2, 3, 4, 9, 10, 15, 18], 8), (45, 0, [7], 10), (46, 0, [7], 10), (37, 0, [7], 11), (38, 0, [7], 11), (39, 0, [7], 11), (40, 0, [7], 11), (25, 0, [7], 12), (26, 0, [7], 12), (27, 0, [7], 12), (51, 0, [7], 13), (52, 0, [7], 13), (53, 0, [7], 13), (54, 0, [7], 13), (55, 0, [7], 13), (47, 0, [2, 3, 4, 9, 10, 15, 18], 15), (48, 0, [2, 3, 4, 9, 10, 15, 18], 15), (47, 0, [11], 16), (48, 0, [11], 16), (47, 0, [16, 17], 17), (48, 0, [16, 17], 17), (51, 0, [16, 17], 19), (52, 0, [16, 17], 19), (53, 0, [16, 17], 19), (54, 0, [16, 17], 19), (55, 0, [16, 17], 19), (47, 0, [7], 29), (48, 0, [7], 29), (58, 0, [2, 3, 4, 9, 10, 15, 18], 43), (58, 0, [14], 44), (58, 0, [11], 45), (58, 0, [16, 17], 47), (58, 0, [7], 54)],
  /- 106 -/ [(52, 2, [2, 3, 4, 7, 9, 10, 11, 15, 16, 17, 18], 0), (54, 2, [2, 3, 4, 7, 9, 10, 11, 15, 16, 17, 18], 0), (16, 0, [4], 0), (17, 0, [4], 0), (18, 0, [4], 2), (19, 0, [4], 2), (16, 0, [2, 3, 9, 10, 15, 18], 3), (17, 0, [2, 3, 9, 10, 15, 18], 3), (20, 0, [4], 4), (21, 0, [4], 4), (22, 0, [4], 4), (23, 0, [4], 4), (24, 0, [4], 4), (20, 0, [7], 5), (21, 0, [7], 5), (22, 0, [7], 5), (23, 0, [7], 5), (24, 0, [7], 5), (18, 0, [2, 3, 9, 10, 15, 18], 6), (19, 0, [2, 3, 9, 10, 15, 18], 6), (58, 0, [8], 8), (45, 0, [4], 9), (46, 0, [4], 9), (37, 0, [4], 10), (38, 0, [4], 10), (39, 0, [4], 10), (40, 0, [4], 10), (25, 0, [4], 11), (26, 0, [4], 11), (27, 0, [4], 11), (51, 0, [4], 12), (52, 0, [4], 12), (53, 0, [4], 12), (54, 0, [4], 12), (55, 0, [4], 12), (45, 0, [7], 14), (46, 0, [7], 14), (37, 0, [7], 15), (38, 0, [7], 15), (39, 0, [7], 15), (40, 0, [7], 15), (25, 0, [7], 16), (26, 0, [7], 16), (27, 0, [7], 16), (51, 0, [7], 17), (52, 0, [7], 17), (53, 0, [7], 17), (54, 0, [7], 17), (55, 0, [7], 17), (20, 0, [2, 3, 9, 10, 15, 18], 18), (21, 0, [2, 3, 9, 10, 15, 18], 18), (22, 0, [2, 3, 9, 10, 15, 18], 18), (23, 0, [2, 3, 9, 10, 15, 18], 18), (24, 0, [2, 3, 9, 10, 15, 18], 18), (47, 0, [4], 21), (48, 0, [4], 21), (47, 0, [11], 22), (48, 0, [11], 22), (47, 0, [16, 17], 23), (48, 0, [16, 17], 23), (51, 0, [16, 17], 25), (52, 0, [16, 17], 25), (53, 0, [16, 17], 25), (54, 0, [16, 17], 25), (55, 0, [16, 17], 25), (47, 0, [7], 35), (48, 0, [7], 35), (45, 0, [2, 3, 9, 10, 15, 18], 50), (46, 0, [2, 3, 9, 10, 15, 18], 50), (37, 0, [2, 3, 9, 10, 15, 18], 51), (38, 0, [2, 3, 9, 10, 15, 18], 51), (39, 0, [2, 3, 9, 10, 15, 18], 51), (40, 0, [2, 3, 9, 10, 15, 18], 51), (25, 0, [2, 3, 9, 10, 15, 18], 52), (26, 0, [2, 3, 9, 10, 15, 18], 52), (27, 0, [2, 3, 9, 10, 15, 18], 52), (51, 0, [2, 3, 9, 10, 15, 18], 53), (52, 0, [2, 3, 9, 10, 15, 18], 53), (53, 0, [2, 3, 9, 10, 15, 18], 53), (54, 0, [2, 3, 9, 10, 15, 18], 53), (55, 0, [2, 3, 9, 10, 15, 18], 53), (58, 0, [4], 54), (58, 0, [14], 55), (58, 0, [11], 56), (58, 0, [16, 17], 58), (58, 0, [7], 65), (47, 0, [2, 3, 9, 10, 15, 18], 67), (48, 0, [2, 3, 9, 10, 15, 18], 67), (58, 0, [2, 3, 9, 10, 15, 18], 86)],
  /- 107 -/ [(53, 2, [2, 3, 4, 7, 9, 10, 11, 15, 16, 17, 18], 0), (55, 2, [2, 3, 4, 7, 9, 10, 11, 15, 16, 17, 18], 0)],
  /- 108 -/ [(52, 4, [2, 3, 4, 7, 9, 10, 15, 16, 17, 18], 0)],
  /- 109 -/ [(55, 4, [2, 3, 4, 7, 9, 10, 15, 16, 17, 18], 0)],
  /- 110 -/ [(17, 1, [2, 3, 4, 9, 10, 15, 18], 0), (53, 4, [2, 3, 4, 7, 9, 10, 15, 16, 17, 18], 0), (18, 0, [2, 3, 4, 9, 10, 15, 18], 0), (19, 0, [2, 3, 4, 9, 10, 15, 18], 0), (20, 0, [2, 3, 4, 9, 10, 15, 18], 2), (21, 0, [2, 3, 4, 9, 10, 15, 18], 2), (22, 0, [2, 3, 4, 9, 10, 15, 18], 2), (23, 0, [2, 3, 4, 9, 10, 15, 18], 2), (24, 0, [2, 3, 4, 9, 10, 15, 18], 2), (20, 0, [7], 3), (21, 0, [7], 3), (22, 0, [7], 3), (23, 0, [7], 3), (24, 0, [7], 3), (58, 0, [8], 4), (45, 0, [2, 3, 4, 9, 10, 15, 18], 5), (46, 0, [2, 3, 4, 9, 10, 15, 18], 5), (37, 0, [2, 3, 4, 9, 10, 15, 18], 6), (38, 0, [2, 3, 4, 9, 10, 15, 18], 6), (39, 0, [2, 3, 4, 9, 10, 15, 18], 6), (40, 0, [2, 3, 4, 9, 10, 15, 18], 6), (25, 0, [2, 3, 4, 9, 10, 15, 18], 7), (26, 0, [2, 3, 4, 9, 10, 15, 18], 7), (27, 0, [2, 3, 4, 9, 10, 15, 18], 7), (51, 0, [2, 3, 4, 9, 10, 15, 18], 8), (52, 0, [2, 3, 4, 9, 10, 15, 18], 8), (53, 0, [2, 3, 4, 9, 10, 15, 18], 8), (54, 0, [2, 3, 4, 9, 10, 15, 18], 8), (55, 0, [2, 3, 4, 9, 10, 15, 18], 8), (45, 0, [7], 10), (46, 0, [7], 10), (37, 0, [7], 11), (38, 0, [7], 11), (39, 0, [7], 11), (40, 0, [7], 11), (25, 0, [7], 12), (26, 0, [7], 12), (27, 0, [7], 12), (51, 0, [7], 13), (52, 0, [7], 13), (53, 0, [7], 13), (54, 0, [7], 13), (55, 0, [7], 13), (47, 0, [2, 3, 4, 9, 10, 15, 18], 15), (48, 0, [2, 3, 4, 9, 10, 15, 18], 15), (47, 0, [11], 16), (48, 0, [11], 16), (47, 0, [16, 17], 17), (48, 0, [16, 17], 17), (51, 0, [16, 17], 19), (52, 0, [16, 17], 19), (53, 0, [16, 17], 19), (54, 0, [16, 17], 19), (55, 0, [16, 17], 19), (47, 0, [7], 29), (48, 0, [7], 29), (58, 0, [2, 3, 4, 9, 10, 15, 18], 43), (58, 0, [14], 44), (58, 0, [11], 45), (58, 0, [16, 17], 47), (58, 0, [7], 54)],
  /- 111 -/ [(7, 6, [1], 0)],
  /- 112 -/ [(15, 6, [1], 0)],
  /- 113 -/ [(31, 4, [2, 3, 4, 7, 9, 10, 11, 15, 18], 0)],
  /- 114 -/ [(36, 3, [12, 13, 18], 0)],
  /- 115 -/ [(58, 1, [12, 13, 18], 0)],
  /- 116 -/ [(34, 3, [12, 13, 18], 0)],
  /- 117 -/ [(50, 4, [2, 3, 4, 7, 9, 10, 11, 15, 16, 17, 18], 0)],
  /- 118 -/ [(58, 1, [2, 3, 4, 7, 9, 10, 11, 15, 16, 17, 18], 0)],
  /- 119 -/ [(51, 3, [2, 3, 4, 7, 9, 10, 11, 15, 16, 17, 18], 0)],
  /- 120 -/ [(54, 3, [2, 3, 4, 7, 9, 10, 11, 15, 16, 17, 18], 0)],
  /- 121 -/ [(17, 1, [2, 3, 4, 9, 10, 15, 18], 0), (52, 3, [2, 3, 4, 7, 9, 10, 11, 15, 16, 17, 18], 0), (18, 0, [2, 3, 4, 9, 10, 15, 18], 0), (19, 0, [2, 3, 4, 9, 10, 15, 18], 0), (20, 0, [2, 3, 4, 9, 10, 15, 18], 2), (21, 0, [2, 3, 4, 9, 10, 15, 18], 2), (22, 0, [2, 3, 4, 9, 10, 15, 18], 2), (23, 0, [2, 3, 4, 9, 10, 15, 18], 2), (24, 0, [2, 3, 4, 9, 10, 15, 18], 2), (20, 0, [7], 3), (21, 0, [7], 3), (22, 0, [7], 3), (23, 0, [7], 3), (24, 0, [7], 3), (58, 0, [8], 4), (45, 0, [2, 3, 4, 9, 10, 15, 18], 5), (46, 0, [2, 3, 4, 9, 10, 15, 18], 5), (37, 0, [2, 3, 4, 9, 10, 15, 18], 6), (38, 0, [2, 3, 4, 9, 10, 15, 18], 6), (39, 0, [2, 3, 4, 9, 10, 15, 18], 6), (40, 0, [2, 3, 4, 9, 10, 15, 18], 6), (25, 0, [2, 3, 4, 9, 10, 15, 18], 7), (26, 0, [2, 3, 4, 9, 10, 15, 18], 7), (27, 0, [2, 3, 4, 9, 10, 15, 18], 7), (51, 0, [2, 3, 4, 9, 10, 15, 18], 8), (52, 0, [2, 3, 4, 9, 10, 15, 18], 8), (53, 0, [2, 3, 4, 9, 10, 15, 18], 8), (54, 0, [2, 3, 4, 9, 10, 15, 18], 8), (55, 0, [2, 3, 4, 9, 10, 15, 18], 8), (45, 0, [7], 10), (46, 0, [7], 10), (37, 0, [7], 11), (38, 0, [7], 11), (39, 0, [7], 11), (40, 0, [7], 11), (25, 0, [7], 12), (26, 0, [7], 12), (27, 0, [7], 12), (51, 0, [7], 13), (52, 0, [7], 13), (53, 0, [7], 13), (54, 0, [7], 13), (55, 0, [7], 13), (47, 0, [2, 3, 4, 9, 10, 15, 18], 15), (48, 0, [2, 3, 4, 9, 10, 15, 18], 15), (47, 0, [11], 16), (48, 0, [11], 16), (47, 0, [16, 17], 17), (48, 0, [16, 17], 17), (51, 0, [16, 17], 19), (52, 0, [16, 17], 19), (53, 0, [16, 17], 19), (54, 0, [16, 17], 19), (55, 0, [16, 17], 19), (47, 0, [7], 29), (48, 0, [7], 29), (58, 0, [2, 3, 4, 9, 10, 15, 18], 43), (58, 0, [14], 44), (58, 0, [11], 45), (58, 0, [16, 17], 47), (58, 0, [7], 54)],
  /- 122 -/ [(53, 3, [2, 3, 4, 7, 9, 10, 11, 15, 16, 17, 18], 0), (55, 3, [2, 3, 4, 7, 9, 10, 11, 15, 16, 17, 18], 0), (16, 0, [4], 0), (17, 0, [4], 0), (18, 0, [4], 2), (19, 0, [4], 2), (16, 0, [2, 3, 9, 10, 15, 18], 3), (17, 0, [2, 3, 9, 10, 15, 18], 3), (20, 0, [4], 4), (21, 0, [4], 4), (22, 0, [4], 4), (23, 0, [4], 4), (24, 0, [4], 4), (20, 0, [7], 5), (21, 0, [7], 5), (22, 0, [7], 5), (23, 0, [7], 5), (24, 0, [7], 5), (18, 0, [2, 3, 9, 10, 15, 18], 6), (19, 0, [2, 3, 9, 10, 15, 18], 6), (58, 0, [8], 8), (45, 0, [4], 9), (46, 0, [4], 9), (37, 0, [4], 10), (38, 0, [4], 10), (39, 0, [4], 10), (40, 0, [4], 10), (25, 0, [4], 11), (26, 0, [4], 11), (27, 0, [4], 11), (51, 0, [4], 12), (52, 0, [4], 12), (53, 0, [4], 12), (54, 0, [4], 12), (55, 0, [4], 12), (45, 0, [7], 14), (46, 0, [7], 14), (37, 0, [7], 15), (38, 0, [7], 15), (39, 0, [7], 15), (40, 0, [7], 15), (25, 0, [7], 16), (26, 0, [7], 16), (27, 0, [7], 16), (51, 0, [7], 17), (52, 0, [7], 17), (53, 0, [7], 17), (54, 0, [7], 17), (55, 0, [7], 17), (20, 0, [2, 3, 9, 10, 15, 18], 18), (21, 0, [2, 3, 9, 10, 15, 18], 18), (22, 0, [2, 3, 9, 10, 15, 18], 18), (23, 0, [2, 3, 9, 10, 15, 18], 18), (24, 0, [2, 3, 9, 10, 15, 18], 18), (47, 0, [4], 21), (48, 0, [4], 21), (47, 0, [11], 22), (48, 0, [11], 22), (47, 0, [16, 17], 23), (48, 0, [16, 17], 23), (51, 0, [16, 17], 25), (52, 0, [16, 17], 25), (53, 0, [16, 17], 25), (54, 0, [16, 17], 25), (55, 0, [16, 17], 25), (47, 0, [7], 35), (48, 0, [7], 35), (45, 0, [2, 3, 9, 10, 15, 18], 50), (46, 0, [2, 3, 9, 10, 15, 18], 50), (37, 0, [2, 3, 9, 10, 15, 18], 51), (38, 0, [2, 3, 9, 10, 15, 18], 51), (39, 0, [2, 3, 9, 10, 15, 18], 51), (40, 0, [2, 3, 9, 10, 15, 18], 51), (25, 0, [2, 3, 9, 10, 15, 18], 52), (26, 0, [2, 3, 9, 10, 15, 18], 52), (27, 0, [2, 3, 9, 10, 15, 18], 52), (51, 0, [2, 3, 9, 10, 15, 18], 53), (52, 0, [2, 3, 9, 10, 15, 18], 53), (53, 0, [2, 3, 9, 10, 15, 18], 53), (54, 0, [2, 3, 9, 10, 15, 18], 53), (55, 0, [2, 3, 9, 10, 15, 18], 53), (58, 0, [4], 54), (58, 0, [14], 55), (58, 0, [11], 56), (58, 0, [16, 17], 58), (58, 0, [7], 65), (47, 0, [2, 3, 9, 10, 15, 18], 67), (48, 0, [2, 3, 9, 10, 15, 18], 67), (58, 0, [2, 3, 9, 10, 15, 18], 86)],
  /- 123 -/ [(53, 5, [2, 3, 4, 7, 9, 10, 15, 16, 17, 18], 0)],
  /- 124 -/ [(52, 4, [2, 3, 4, 7, 9, 10, 11, 15, 16, 17, 18], 0)],
  /- 125 -/ [(55, 4, [2, 3, 4, 7, 9, 10, 11, 15, 16, 17, 18], 0)],
  /- 126 -/ [(17, 1, [2, 3, 4, 9, 10, 15, 18], 0), (53, 4, [2, 3, 4, 7, 9, 10, 11, 15, 16, 17, 18], 0), (18, 0, [2, 3, 4, 9, 10, 15, 18], 0), (19, 0, [2, 3, 4, 9, 10, 15, 18], 0), (20, 0, [2, 3, 4, 9, 10, 15, 18], 2), (21, 0, [2, 3, 4, 9, 10, 15, 18], 2), (22, 0, [2, 3, 4, 9, 10, 15, 18], 2), (23, 0, [2, 3, 4, 9, 10, 15, 18], 2), (24, 0, [2, 3, 4, 9, 10, 15, 18], 2), (20, 0, [7], 3), (21, 0, [7], 3), (22, 0, [7], 3), (23, 0, [7], 3), (24, 0, [7], 3), (58, 0, [8], 4), (45, 0, [2, 3, 4, 9, 10, 15, 18], 5), (46, 0, [2, 3, 4, 9, 10, 15, 18], 5), (37, 0, [2, 3, 4, 9, 10, 15, 18], 6), (38, 0, [2, 3, 4, 9, 10, 15, 18], 6), (39, 0, [2, 3, 4, 9, 10, 15, 18], 6), (40, 0, [2, 3, 4, 9, 10, 15, 18], 6), (25, 0, [2, 3, 4, 9, 10, 15, 18], 7), (26, 0, [2, 3, 4, 9, 10, 15, 18], 7), (27, 0, [2, 3, 4, 9, 10, 15, 18], 7), (51, 0, [2, 3, 4, 9, 10, 15, 18], 8), (52, 0, [2, 3, 4, 9, 10, 15, 18], 8), (53, 0, [2, 3, 4, 9, 10, 15, 18], 8), (54, 0, [2, 3, 4, 9, 10, 15, 18], 8), (55, 0, [2, 3, 4, 9, 10, 15, 18], 8), (45, 0, [7], 10), (46, 0, [7], 10), (37, 0, [7], 11), (38, 0, [7], 11), (39, 0, [7], 11), (40, 0, [7], 11), (25, 0, [7], 12), (26, 0, [7], 12), (27, 0, [7], 12), (51, 0, [7], 13), (52, 0, [7], 13), (53, 0, [7], 13), (54, 0, [7], 13), (55, 0, [7], 13), (47, 0, [2, 3, 4, 9, 10, 15, 18], 15), (48, 0, [2, 3, 4, 9, 10, 15, 18], 15), (47, 0, [11], 16), (48, 0, [11], 16), (47, 0, [16, 17], 17), (48, 0, [16, 17], 17), (51, 0, [16, 17], 19), (52, 0, [16, 17], 19), (53, 0, [16, 17], 19), (54, 0, [16, 17], 19), (55, 0, [16, 17], 19), (47, 0, [7], 29), (48, 0, [7], 29), (58, 0, [2, 3, 4, 9, 10, 15, 18], 43), (58, 0, [14], 44), (58, 0, [11], 45), (58, 0, [16, 17], 47), (58, 0, [7], 54)],
  /- 127 -/ [(53, 5, [2, 3, 4, 7, 9, 10, 11, 15, 16, 17, 18], 0)]]

end Gographviz.Parse
