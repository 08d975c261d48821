/- Generated by tools/gen_tables.py from the text of /repo. Do not edit. -/
namespace Gographviz.Parse

/-- internal/parser/actiontable.go:30-129 `data`. -/
def actionData : List Nat := [
  31, 139, 8, 0, 0, 0, 0, 0, 0, 255, 156, 151, 79, 136, 91, 85, 27, 198, 207, 123, 231, 126, 211, 249, 102, 166, 165, 12, 243, 133, 97, 24,
  134, 16, 194, 16, 66, 8, 33, 12, 33, 228, 139, 33, 142, 101, 208, 33, 132, 16, 66, 8, 49, 134, 154, 166, 33, 13, 241, 54, 76, 211, 161, 224,
  31, 106, 173, 218, 149, 184, 112, 225, 202, 165, 11, 23, 34, 226, 66, 92, 136, 11, 233, 66, 92, 186, 16, 23, 34, 46, 92, 137, 184, 16, 17, 23,
  189, 114, 207, 47, 61, 153, 212, 201, 228, 38, 116, 113, 110, 78, 239, 243, 123, 158, 115, 206, 123, 206, 61, 115, 209, 125, 219, 18, 203, 125, 160, 196,
  189, 167, 84, 196, 125, 125, 73, 44, 247, 158, 18, 75, 86, 159, 121, 209, 41, 95, 191, 118, 243, 228, 250, 177, 88, 74, 46, 60, 125, 109, 120, 227,
  166, 115, 75, 220, 183, 148, 82, 79, 185, 111, 90, 34, 241, 231, 95, 184, 53, 60, 190, 125, 109, 24, 124, 57, 248, 156, 211, 190, 126, 39, 120, 195,
  25, 254, 63, 200, 155, 163, 231, 151, 110, 222, 118, 134, 222, 115, 240, 85, 79, 42, 238, 125, 165, 98, 238, 27, 158, 205, 125, 37, 75, 242, 31, 45,
  20, 91, 201, 50, 58, 30, 181, 76, 108, 165, 212, 163, 255, 61, 116, 31, 40, 247, 174, 181, 36, 182, 247, 79, 201, 170, 216, 178, 172, 100, 93, 108,
  89, 81, 202, 18, 177, 148, 178, 44, 89, 22, 91, 86, 149, 132, 197, 150, 75, 186, 195, 123, 253, 50, 239, 109, 152, 55, 54, 199, 111, 92, 208, 111,
  108, 41, 221, 191, 173, 100, 69, 108, 217, 81, 178, 33, 182, 196, 149, 108, 138, 45, 9, 37, 187, 98, 203, 62, 154, 148, 54, 243, 94, 78, 143, 158,
  44, 57, 49, 224, 204, 105, 107, 175, 35, 119, 190, 211, 129, 47, 167, 67, 253, 20, 16, 91, 142, 148, 178, 150, 159, 224, 204, 0, 88, 222, 63, 165,
  172, 139, 98, 139, 37, 87, 149, 78, 124, 213, 179, 215, 205, 37, 154, 203, 98, 75, 209, 99, 233, 95, 155, 52, 1, 154, 29, 177, 165, 236, 145, 245,
  175, 32, 77, 136, 38, 172, 155, 179, 7, 87, 153, 145, 237, 130, 78, 20, 34, 81, 136, 68, 33, 50, 132, 200, 16, 194, 53, 132, 79, 72, 41, 107,
  69, 107, 246, 208, 236, 161, 217, 243, 70, 97, 75, 13, 233, 30, 210, 61, 164, 123, 72, 247, 140, 52, 134, 52, 134, 52, 198, 4, 196, 144, 198, 144,
  198, 144, 198, 144, 198, 140, 52, 142, 52, 142, 52, 142, 52, 142, 52, 142, 52, 142, 52, 142, 52, 110, 164, 9, 164, 9, 164, 9, 164, 9, 164, 9,
  164, 9, 164, 9, 164, 9, 165, 172, 85, 45, 77, 34, 77, 34, 77, 34, 77, 34, 77, 34, 77, 34, 77, 122, 139, 99, 75, 211, 91, 28, 251, 241,
  226, 36, 39, 106, 103, 252, 180, 166, 225, 13, 224, 13, 224, 13, 224, 13, 224, 13, 224, 13, 53, 210, 104, 143, 198, 89, 30, 13, 83, 238, 189, 113,
  185, 83, 111, 39, 106, 180, 67, 180, 193, 9, 6, 39, 94, 189, 233, 102, 131, 102, 147, 38, 64, 179, 67, 179, 75, 19, 164, 9, 209, 132, 71, 219,
  237, 172, 122, 115, 124, 212, 219, 147, 154, 99, 95, 27, 112, 154, 227, 29, 95, 234, 87, 204, 62, 220, 152, 194, 121, 109, 129, 228, 238, 221, 25, 162,
  255, 234, 5, 216, 103, 1, 246, 89, 128, 125, 22, 96, 159, 153, 223, 103, 230, 247, 89, 97, 239, 40, 222, 229, 103, 88, 55, 222, 162, 110, 121, 255,
  241, 0, 168, 251, 206, 180, 40, 239, 206, 156, 7, 173, 127, 207, 212, 93, 139, 84, 45, 82, 181, 72, 213, 34, 85, 139, 84, 45, 234, 161, 69, 168,
  22, 133, 208, 162, 16, 90, 68, 108, 141, 209, 239, 155, 57, 94, 53, 39, 75, 24, 147, 48, 38, 97, 232, 97, 232, 97, 176, 97, 64, 97, 163, 137,
  160, 137, 160, 137, 160, 137, 160, 137, 160, 137, 160, 137, 152, 193, 148, 208, 148, 208, 148, 24, 76, 9, 105, 9, 105, 105, 98, 19, 149, 206, 218, 68,
  37, 165, 172, 37, 61, 171, 238, 7, 76, 160, 251, 161, 26, 15, 110, 73, 123, 28, 3, 56, 70, 114, 108, 250, 135, 244, 15, 233, 31, 154, 213, 79,
  17, 45, 69, 180, 20, 209, 82, 68, 75, 17, 45, 53, 185, 250, 41, 16, 227, 2, 74, 131, 72, 131, 72, 131, 72, 131, 72, 131, 72, 79, 34, 210,
  32, 210, 6, 209, 4, 209, 4, 209, 4, 209, 4, 209, 4, 209, 156, 68, 52, 65, 52, 205, 28, 23, 64, 20, 64, 20, 64, 20, 64, 20, 64, 20,
  38, 230, 184, 112, 214, 28, 23, 166, 21, 240, 71, 190, 54, 178, 251, 177, 169, 178, 229, 105, 164, 79, 124, 125, 144, 237, 105, 242, 79, 23, 57, 9,
  62, 243, 229, 185, 57, 77, 254, 249, 34, 158, 95, 248, 242, 220, 54, 79, 129, 105, 160, 47, 103, 128, 70, 103, 208, 87, 167, 206, 32, 91, 95, 87,
  220, 175, 149, 108, 137, 37, 207, 42, 217, 166, 9, 235, 230, 113, 213, 101, 40, 153, 12, 37, 147, 161, 100, 50, 148, 76, 134, 146, 201, 112, 198, 100,
  40, 153, 12, 132, 140, 222, 85, 218, 244, 161, 135, 182, 197, 253, 230, 148, 249, 146, 54, 61, 192, 244, 0, 201, 193, 40, 148, 254, 68, 109, 209, 108,
  79, 126, 176, 248, 152, 119, 201, 212, 37, 83, 151, 76, 93, 50, 117, 201, 212, 37, 76, 151, 3, 175, 203, 129, 215, 5, 212, 53, 23, 138, 40, 160,
  40, 160, 40, 160, 40, 160, 40, 160, 40, 160, 40, 210, 168, 145, 78, 251, 36, 79, 126, 139, 119, 39, 227, 175, 107, 105, 27, 105, 27, 105, 27, 105,
  27, 105, 27, 105, 155, 41, 109, 115, 109, 116, 191, 133, 212, 102, 52, 109, 70, 211, 134, 219, 54, 92, 127, 145, 230, 184, 30, 80, 1, 101, 176, 101,
  176, 101, 176, 101, 176, 101, 176, 229, 201, 115, 167, 12, 162, 124, 254, 89, 60, 215, 13, 124, 253, 220, 123, 247, 194, 23, 110, 142, 197, 42, 216, 42,
  216, 42, 216, 42, 216, 42, 216, 42, 216, 42, 188, 42, 188, 42, 188, 42, 188, 170, 225, 85, 224, 85, 224, 85, 224, 85, 224, 85, 224, 85, 224, 85,
  224, 85, 224, 85, 224, 85, 224, 85, 204, 125, 208, 253, 110, 124, 33, 100, 77, 138, 56, 20, 113, 40, 226, 48, 250, 203, 163, 136, 67, 113, 114, 77,
  138, 64, 139, 102, 19, 57, 32, 28, 16, 14, 8, 7, 132, 3, 194, 65, 234, 144, 206, 33, 157, 3, 200, 153, 118, 18, 125, 191, 200, 57, 248, 131,
  175, 115, 112, 221, 60, 93, 50, 79, 43, 211, 144, 63, 250, 66, 238, 154, 167, 173, 105, 160, 159, 124, 129, 118, 204, 218, 228, 152, 216, 28, 19, 155,
  99, 98, 115, 76, 108, 142, 137, 205, 177, 250, 57, 230, 55, 199, 140, 230, 198, 39, 230, 207, 103, 156, 152, 163, 43, 218, 47, 198, 39, 139, 79, 22,
  159, 44, 62, 89, 124, 178, 248, 100, 241, 201, 226, 147, 197, 39, 107, 142, 223, 43, 156, 175, 87, 232, 191, 50, 54, 57, 229, 247, 171, 169, 234, 58,
  126, 117, 252, 234, 248, 213, 241, 171, 227, 87, 199, 175, 142, 95, 157, 186, 169, 83, 55, 117, 92, 234, 134, 87, 131, 87, 131, 87, 131, 55, 250, 243,
  179, 6, 175, 6, 175, 6, 175, 6, 175, 6, 175, 6, 175, 54, 109, 217, 126, 91, 164, 14, 127, 247, 119, 131, 249, 195, 236, 162, 30, 131, 232, 49,
  136, 30, 131, 232, 49, 136, 30, 131, 232, 145, 190, 71, 250, 30, 233, 123, 164, 239, 25, 208, 0, 208, 0, 208, 0, 208, 0, 208, 0, 208, 0, 208,
  0, 208, 0, 208, 0, 208, 96, 218, 136, 254, 244, 85, 189, 151, 205, 83, 208, 212, 87, 158, 68, 121, 18, 229, 73, 148, 39, 81, 158, 68, 121, 214,
  39, 79, 176, 60, 81, 242, 166, 190, 142, 168, 175, 35, 250, 143, 76, 255, 191, 191, 235, 244, 31, 210, 127, 72, 255, 161, 169, 148, 14, 73, 58, 36,
  233, 144, 164, 67, 146, 14, 73, 58, 36, 233, 144, 164, 195, 20, 117, 152, 162, 14, 188, 142, 225, 205, 245, 161, 60, 247, 11, 185, 54, 199, 125, 36,
  224, 227, 90, 178, 54, 199, 209, 28, 88, 244, 132, 254, 107, 145, 157, 241, 247, 12, 17, 85, 220, 39, 121, 159, 228, 125, 146, 247, 73, 222, 39, 121,
  159, 200, 125, 34, 247, 137, 220, 39, 114, 223, 76, 129, 191, 125, 21, 240, 177, 189, 214, 230, 216, 94, 129, 69, 119, 217, 163, 25, 179, 179, 54, 199,
  236, 4, 102, 79, 210, 63, 1, 0, 0, 255, 255, 209, 71, 92, 38, 107, 22, 0, 0]

/-- internal/parser/gototable.go:22-42 `data`. -/
def gotoData : List Nat := [
  31, 139, 8, 0, 0, 0, 0, 0, 0, 255, 226, 253, 223, 205, 196, 200, 244, 191, 135, 129, 241, 127, 23, 3, 3, 207, 255, 78, 16, 175, 139, 129,
  145, 133, 129, 225, 31, 167, 198, 255, 30, 134, 255, 13, 130, 140, 76, 140, 168, 64, 144, 17, 29, 96, 136, 240, 16, 161, 70, 76, 144, 145, 81, 65,
  73, 69, 139, 145, 145, 81, 131, 81, 205, 136, 81, 135, 81, 142, 8, 93, 152, 34, 54, 24, 34, 14, 130, 140, 140, 46, 68, 154, 236, 129, 34, 226,
  67, 154, 123, 2, 160, 34, 97, 148, 251, 130, 84, 145, 40, 16, 17, 3, 19, 73, 194, 80, 147, 130, 33, 146, 198, 200, 200, 152, 129, 162, 11, 1,
  114, 176, 218, 85, 128, 17, 26, 37, 68, 132, 79, 21, 121, 113, 138, 17, 134, 255, 155, 136, 53, 232, 127, 215, 255, 30, 24, 179, 141, 136, 248, 248,
  63, 137, 8, 71, 253, 159, 70, 81, 28, 253, 159, 5, 55, 104, 14, 170, 170, 255, 75, 24, 255, 47, 98, 252, 191, 128, 230, 201, 228, 255, 10, 84,
  39, 252, 95, 67, 165, 152, 33, 70, 205, 255, 109, 196, 88, 134, 169, 109, 15, 53, 221, 248, 255, 16, 90, 194, 32, 50, 228, 24, 25, 255, 159, 32,
  79, 31, 189, 69, 254, 95, 96, 252, 127, 14, 146, 152, 254, 95, 194, 23, 116, 1, 228, 218, 247, 255, 26, 249, 57, 248, 14, 21, 138, 119, 10, 10,
  88, 10, 138, 101, 124, 241, 255, 255, 9, 105, 70, 189, 192, 99, 212, 43, 242, 3, 247, 211, 192, 6, 238, 96, 19, 193, 12, 160, 63, 244, 10, 32,
  64, 0, 0, 0, 255, 255, 143, 250, 209, 26, 70, 9, 0, 0]

end Gographviz.Parse
