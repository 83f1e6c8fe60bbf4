import Verif.Lemmas.Tiny
import Verif.Props.Arith
/-!
# The tests of the project, on the model

`clr_lite/src/vm/interpreter/tests.rs` runs methods of `tests/vm/InterpreterTests/Tests.cs`. Here are these methods, as a C# compiler
translates them without optimisation, executed by the model with the arguments and results of `tests.rs`. These are examples that
compare the model with what the authors expect of the code, evaluated and not proved; no property rests on them. Simplifications: all methods are in one class of
the registry `Ex.tiny`, and so are the class `CustomObject` with its field, the constructor of `object` and the two methods of
`libraries/System.Console/src/System/Console.cs`. The two methods that compute with floating-point numbers are left out, since what the
hardware computes is a parameter of the model (C87). -/

namespace Clr.Replay

def Empty : MethodRec := Ex.meth [0, 42] (ret := 8) (params := 0) (locals := 0)
def NonStatic : MethodRec := Ex.meth [0, 42] (ret := 8) (params := 0) (locals := 0) (isStatic := false)
def Fibonacci : MethodRec := Ex.meth [0, 2, 24, 254, 4, 10, 6, 44, 5, 0, 2, 11, 43, 20, 2, 23, 89, 40, 3, 0, 0, 6, 2, 24, 89, 40, 3, 0, 0, 6, 88, 11, 43, 0, 7, 42] (ret := 8) (params := 1) (locals := 2)
def Ldc_I4_M1 : MethodRec := Ex.meth [0, 21, 10, 43, 0, 6, 42] (ret := 8) (params := 0) (locals := 1)
def Ldc_I4_4 : MethodRec := Ex.meth [0, 26, 10, 43, 0, 6, 42] (ret := 8) (params := 0) (locals := 1)
def Ldc_I4_S : MethodRec := Ex.meth [0, 31, 100, 10, 43, 0, 6, 42] (ret := 8) (params := 0) (locals := 1)
def Ldc_I4 : MethodRec := Ex.meth [0, 32, 232, 3, 0, 0, 10, 43, 0, 6, 42] (ret := 8) (params := 0) (locals := 1)
def Ldc_R4 : MethodRec := Ex.meth [0, 34, 208, 15, 73, 64, 10, 43, 0, 6, 42] (ret := 8) (params := 0) (locals := 1)
def Ldc_R8 : MethodRec := Ex.meth [0, 35, 93, 29, 91, 42, 202, 192, 243, 63, 10, 43, 0, 6, 42] (ret := 8) (params := 0) (locals := 1)
def Locals : MethodRec := Ex.meth [0, 31, 42, 10, 6, 11, 7, 12, 8, 13, 9, 19, 4, 17, 4, 19, 5, 17, 5, 19, 6, 17, 6, 19, 7, 17, 7, 19, 8, 17, 8, 19, 9, 17, 9, 19, 10, 17, 10, 19, 11, 17, 11, 19, 12, 17, 12, 19, 13, 17, 13, 19, 14, 17, 14, 19, 15, 17, 15, 19, 16, 17, 16, 19, 17, 17, 17, 19, 18, 17, 18, 19, 19, 17, 19, 19, 20, 17, 20, 19, 21, 17, 21, 19, 22, 17, 22, 19, 23, 17, 23, 19, 24, 17, 24, 19, 25, 17, 25, 19, 26, 17, 26, 19, 27, 17, 27, 19, 28, 17, 28, 19, 29, 17, 29, 19, 30, 17, 30, 19, 31, 17, 31, 19, 32, 17, 32, 19, 33, 17, 33, 19, 34, 17, 34, 19, 35, 17, 35, 19, 36, 17, 36, 19, 37, 17, 37, 19, 38, 17, 38, 19, 39, 17, 39, 19, 40, 17, 40, 19, 41, 17, 41, 19, 42, 17, 42, 19, 43, 17, 43, 19, 44, 17, 44, 19, 45, 17, 45, 19, 46, 17, 46, 19, 47, 17, 47, 19, 48, 17, 48, 19, 49, 17, 49, 19, 50, 17, 50, 19, 51, 17, 51, 19, 52, 17, 52, 19, 53, 17, 53, 19, 54, 17, 54, 19, 55, 17, 55, 19, 56, 17, 56, 19, 57, 17, 57, 19, 58, 17, 58, 19, 59, 17, 59, 19, 60, 17, 60, 19, 61, 17, 61, 19, 62, 17, 62, 19, 63, 17, 63, 19, 64, 17, 64, 19, 65, 17, 65, 19, 66, 17, 66, 19, 67, 17, 67, 19, 68, 17, 68, 19, 69, 17, 69, 19, 70, 17, 70, 19, 71, 17, 71, 19, 72, 17, 72, 19, 73, 17, 73, 19, 74, 17, 74, 19, 75, 17, 75, 19, 76, 17, 76, 19, 77, 17, 77, 19, 78, 17, 78, 19, 79, 17, 79, 19, 80, 17, 80, 19, 81, 17, 81, 19, 82, 17, 82, 19, 83, 17, 83, 19, 84, 17, 84, 19, 85, 17, 85, 19, 86, 17, 86, 19, 87, 17, 87, 19, 88, 17, 88, 19, 89, 17, 89, 19, 90, 17, 90, 19, 91, 17, 91, 19, 92, 17, 92, 19, 93, 17, 93, 19, 94, 17, 94, 19, 95, 17, 95, 19, 96, 17, 96, 19, 97, 17, 97, 19, 98, 17, 98, 19, 99, 17, 99, 19, 100, 17, 100, 19, 101, 17, 101, 19, 102, 17, 102, 19, 103, 17, 103, 19, 104, 17, 104, 19, 105, 17, 105, 19, 106, 17, 106, 19, 107, 17, 107, 19, 108, 17, 108, 19, 109, 17, 109, 19, 110, 17, 110, 19, 111, 17, 111, 19, 112, 17, 112, 19, 113, 17, 113, 19, 114, 17, 114, 19, 115, 17, 115, 19, 116, 17, 116, 19, 117, 17, 117, 19, 118, 17, 118, 19, 119, 17, 119, 19, 120, 17, 120, 19, 121, 17, 121, 19, 122, 17, 122, 19, 123, 17, 123, 19, 124, 17, 124, 19, 125, 17, 125, 19, 126, 17, 126, 19, 127, 17, 127, 19, 128, 17, 128, 19, 129, 17, 129, 19, 130, 17, 130, 19, 131, 17, 131, 19, 132, 17, 132, 19, 133, 17, 133, 19, 134, 17, 134, 19, 135, 17, 135, 19, 136, 17, 136, 19, 137, 17, 137, 19, 138, 17, 138, 19, 139, 17, 139, 19, 140, 17, 140, 19, 141, 17, 141, 19, 142, 17, 142, 19, 143, 17, 143, 19, 144, 17, 144, 19, 145, 17, 145, 19, 146, 17, 146, 19, 147, 17, 147, 19, 148, 17, 148, 19, 149, 17, 149, 19, 150, 17, 150, 19, 151, 17, 151, 19, 152, 17, 152, 19, 153, 17, 153, 19, 154, 17, 154, 19, 155, 17, 155, 19, 156, 17, 156, 19, 157, 17, 157, 19, 158, 17, 158, 19, 159, 17, 159, 19, 160, 17, 160, 19, 161, 17, 161, 19, 162, 17, 162, 19, 163, 17, 163, 19, 164, 17, 164, 19, 165, 17, 165, 19, 166, 17, 166, 19, 167, 17, 167, 19, 168, 17, 168, 19, 169, 17, 169, 19, 170, 17, 170, 19, 171, 17, 171, 19, 172, 17, 172, 19, 173, 17, 173, 19, 174, 17, 174, 19, 175, 17, 175, 19, 176, 17, 176, 19, 177, 17, 177, 19, 178, 17, 178, 19, 179, 17, 179, 19, 180, 17, 180, 19, 181, 17, 181, 19, 182, 17, 182, 19, 183, 17, 183, 19, 184, 17, 184, 19, 185, 17, 185, 19, 186, 17, 186, 19, 187, 17, 187, 19, 188, 17, 188, 19, 189, 17, 189, 19, 190, 17, 190, 19, 191, 17, 191, 19, 192, 17, 192, 19, 193, 17, 193, 19, 194, 17, 194, 19, 195, 17, 195, 19, 196, 17, 196, 19, 197, 17, 197, 19, 198, 17, 198, 19, 199, 17, 199, 19, 200, 17, 200, 19, 201, 17, 201, 19, 202, 17, 202, 19, 203, 17, 203, 19, 204, 17, 204, 19, 205, 17, 205, 19, 206, 17, 206, 19, 207, 17, 207, 19, 208, 17, 208, 19, 209, 17, 209, 19, 210, 17, 210, 19, 211, 17, 211, 19, 212, 17, 212, 19, 213, 17, 213, 19, 214, 17, 214, 19, 215, 17, 215, 19, 216, 17, 216, 19, 217, 17, 217, 19, 218, 17, 218, 19, 219, 17, 219, 19, 220, 17, 220, 19, 221, 17, 221, 19, 222, 17, 222, 19, 223, 17, 223, 19, 224, 17, 224, 19, 225, 17, 225, 19, 226, 17, 226, 19, 227, 17, 227, 19, 228, 17, 228, 19, 229, 17, 229, 19, 230, 17, 230, 19, 231, 17, 231, 19, 232, 17, 232, 19, 233, 17, 233, 19, 234, 17, 234, 19, 235, 17, 235, 19, 236, 17, 236, 19, 237, 17, 237, 19, 238, 17, 238, 19, 239, 17, 239, 19, 240, 17, 240, 19, 241, 17, 241, 19, 242, 17, 242, 19, 243, 17, 243, 19, 244, 17, 244, 19, 245, 17, 245, 19, 246, 17, 246, 19, 247, 17, 247, 19, 248, 17, 248, 19, 249, 17, 249, 19, 250, 17, 250, 19, 251, 17, 251, 19, 252, 17, 252, 19, 253, 17, 253, 19, 254, 17, 254, 19, 255, 17, 255, 254, 14, 0, 1, 43, 0, 254, 12, 0, 1, 42] (ret := 8) (params := 0) (locals := 257)
def Parameters : MethodRec := Ex.meth [0, 31, 10, 16, 0, 2, 16, 1, 3, 16, 2, 4, 16, 3, 5, 16, 4, 14, 4, 16, 5, 14, 5, 16, 6, 14, 6, 16, 7, 14, 7, 16, 8, 14, 8, 16, 9, 14, 9, 16, 10, 14, 10, 16, 11, 14, 11, 16, 12, 14, 12, 16, 13, 14, 13, 16, 14, 14, 14, 16, 15, 14, 15, 16, 16, 14, 16, 16, 17, 14, 17, 16, 18, 14, 18, 16, 19, 14, 19, 16, 20, 14, 20, 16, 21, 14, 21, 16, 22, 14, 22, 16, 23, 14, 23, 16, 24, 14, 24, 16, 25, 14, 25, 16, 26, 14, 26, 16, 27, 14, 27, 16, 28, 14, 28, 16, 29, 14, 29, 16, 30, 14, 30, 16, 31, 14, 31, 16, 32, 14, 32, 16, 33, 14, 33, 16, 34, 14, 34, 16, 35, 14, 35, 16, 36, 14, 36, 16, 37, 14, 37, 16, 38, 14, 38, 16, 39, 14, 39, 16, 40, 14, 40, 16, 41, 14, 41, 16, 42, 14, 42, 16, 43, 14, 43, 16, 44, 14, 44, 16, 45, 14, 45, 16, 46, 14, 46, 16, 47, 14, 47, 16, 48, 14, 48, 16, 49, 14, 49, 16, 50, 14, 50, 16, 51, 14, 51, 16, 52, 14, 52, 16, 53, 14, 53, 16, 54, 14, 54, 16, 55, 14, 55, 16, 56, 14, 56, 16, 57, 14, 57, 16, 58, 14, 58, 16, 59, 14, 59, 16, 60, 14, 60, 16, 61, 14, 61, 16, 62, 14, 62, 16, 63, 14, 63, 16, 64, 14, 64, 16, 65, 14, 65, 16, 66, 14, 66, 16, 67, 14, 67, 16, 68, 14, 68, 16, 69, 14, 69, 16, 70, 14, 70, 16, 71, 14, 71, 16, 72, 14, 72, 16, 73, 14, 73, 16, 74, 14, 74, 16, 75, 14, 75, 16, 76, 14, 76, 16, 77, 14, 77, 16, 78, 14, 78, 16, 79, 14, 79, 16, 80, 14, 80, 16, 81, 14, 81, 16, 82, 14, 82, 16, 83, 14, 83, 16, 84, 14, 84, 16, 85, 14, 85, 16, 86, 14, 86, 16, 87, 14, 87, 16, 88, 14, 88, 16, 89, 14, 89, 16, 90, 14, 90, 16, 91, 14, 91, 16, 92, 14, 92, 16, 93, 14, 93, 16, 94, 14, 94, 16, 95, 14, 95, 16, 96, 14, 96, 16, 97, 14, 97, 16, 98, 14, 98, 16, 99, 14, 99, 16, 100, 14, 100, 16, 101, 14, 101, 16, 102, 14, 102, 16, 103, 14, 103, 16, 104, 14, 104, 16, 105, 14, 105, 16, 106, 14, 106, 16, 107, 14, 107, 16, 108, 14, 108, 16, 109, 14, 109, 16, 110, 14, 110, 16, 111, 14, 111, 16, 112, 14, 112, 16, 113, 14, 113, 16, 114, 14, 114, 16, 115, 14, 115, 16, 116, 14, 116, 16, 117, 14, 117, 16, 118, 14, 118, 16, 119, 14, 119, 16, 120, 14, 120, 16, 121, 14, 121, 16, 122, 14, 122, 16, 123, 14, 123, 16, 124, 14, 124, 16, 125, 14, 125, 16, 126, 14, 126, 16, 127, 14, 127, 16, 128, 14, 128, 16, 129, 14, 129, 16, 130, 14, 130, 16, 131, 14, 131, 16, 132, 14, 132, 16, 133, 14, 133, 16, 134, 14, 134, 16, 135, 14, 135, 16, 136, 14, 136, 16, 137, 14, 137, 16, 138, 14, 138, 16, 139, 14, 139, 16, 140, 14, 140, 16, 141, 14, 141, 16, 142, 14, 142, 16, 143, 14, 143, 16, 144, 14, 144, 16, 145, 14, 145, 16, 146, 14, 146, 16, 147, 14, 147, 16, 148, 14, 148, 16, 149, 14, 149, 16, 150, 14, 150, 16, 151, 14, 151, 16, 152, 14, 152, 16, 153, 14, 153, 16, 154, 14, 154, 16, 155, 14, 155, 16, 156, 14, 156, 16, 157, 14, 157, 16, 158, 14, 158, 16, 159, 14, 159, 16, 160, 14, 160, 16, 161, 14, 161, 16, 162, 14, 162, 16, 163, 14, 163, 16, 164, 14, 164, 16, 165, 14, 165, 16, 166, 14, 166, 16, 167, 14, 167, 16, 168, 14, 168, 16, 169, 14, 169, 16, 170, 14, 170, 16, 171, 14, 171, 16, 172, 14, 172, 16, 173, 14, 173, 16, 174, 14, 174, 16, 175, 14, 175, 16, 176, 14, 176, 16, 177, 14, 177, 16, 178, 14, 178, 16, 179, 14, 179, 16, 180, 14, 180, 16, 181, 14, 181, 16, 182, 14, 182, 16, 183, 14, 183, 16, 184, 14, 184, 16, 185, 14, 185, 16, 186, 14, 186, 16, 187, 14, 187, 16, 188, 14, 188, 16, 189, 14, 189, 16, 190, 14, 190, 16, 191, 14, 191, 16, 192, 14, 192, 16, 193, 14, 193, 16, 194, 14, 194, 16, 195, 14, 195, 16, 196, 14, 196, 16, 197, 14, 197, 16, 198, 14, 198, 16, 199, 14, 199, 16, 200, 14, 200, 16, 201, 14, 201, 16, 202, 14, 202, 16, 203, 14, 203, 16, 204, 14, 204, 16, 205, 14, 205, 16, 206, 14, 206, 16, 207, 14, 207, 16, 208, 14, 208, 16, 209, 14, 209, 16, 210, 14, 210, 16, 211, 14, 211, 16, 212, 14, 212, 16, 213, 14, 213, 16, 214, 14, 214, 16, 215, 14, 215, 16, 216, 14, 216, 16, 217, 14, 217, 16, 218, 14, 218, 16, 219, 14, 219, 16, 220, 14, 220, 16, 221, 14, 221, 16, 222, 14, 222, 16, 223, 14, 223, 16, 224, 14, 224, 16, 225, 14, 225, 16, 226, 14, 226, 16, 227, 14, 227, 16, 228, 14, 228, 16, 229, 14, 229, 16, 230, 14, 230, 16, 231, 14, 231, 16, 232, 14, 232, 16, 233, 14, 233, 16, 234, 14, 234, 16, 235, 14, 235, 16, 236, 14, 236, 16, 237, 14, 237, 16, 238, 14, 238, 16, 239, 14, 239, 16, 240, 14, 240, 16, 241, 14, 241, 16, 242, 14, 242, 16, 243, 14, 243, 16, 244, 14, 244, 16, 245, 14, 245, 16, 246, 14, 246, 16, 247, 14, 247, 16, 248, 14, 248, 16, 249, 14, 249, 16, 250, 14, 250, 16, 251, 14, 251, 16, 252, 14, 252, 16, 253, 14, 253, 16, 254, 14, 254, 16, 255, 14, 255, 10, 43, 0, 6, 42] (ret := 8) (params := 256) (locals := 1)
def CallEmpty : MethodRec := Ex.meth [0, 40, 1, 0, 0, 6, 0, 42] (ret := 8) (params := 0) (locals := 0)
def ReturnValue : MethodRec := Ex.meth [0, 40, 8, 0, 0, 6, 10, 43, 0, 6, 42] (ret := 8) (params := 0) (locals := 1)
def CallConsoleWriteLine : MethodRec := Ex.meth [0, 114, 1, 0, 0, 112, 40, 46, 0, 0, 6, 0, 42] (ret := 8) (params := 0) (locals := 0)
def Goto : MethodRec := Ex.meth [0, 43, 4, 26, 10, 43, 2, 43, 250, 6, 42] (ret := 8) (params := 0) (locals := 1)
def Br : MethodRec := Ex.meth [0, 56, 244, 0, 0, 0, 40, 1, 0, 0, 6, 0, 40, 1, 0, 0, 6, 0, 40, 1, 0, 0, 6, 0, 40, 1, 0, 0, 6, 0, 40, 1, 0, 0, 6, 0, 40, 1, 0, 0, 6, 0, 40, 1, 0, 0, 6, 0, 40, 1, 0, 0, 6, 0, 40, 1, 0, 0, 6, 0, 40, 1, 0, 0, 6, 0, 40, 1, 0, 0, 6, 0, 40, 1, 0, 0, 6, 0, 40, 1, 0, 0, 6, 0, 40, 1, 0, 0, 6, 0, 40, 1, 0, 0, 6, 0, 40, 1, 0, 0, 6, 0, 40, 1, 0, 0, 6, 0, 40, 1, 0, 0, 6, 0, 40, 1, 0, 0, 6, 0, 40, 1, 0, 0, 6, 0, 40, 1, 0, 0, 6, 0, 40, 1, 0, 0, 6, 0, 40, 1, 0, 0, 6, 0, 40, 1, 0, 0, 6, 0, 40, 1, 0, 0, 6, 0, 40, 1, 0, 0, 6, 0, 40, 1, 0, 0, 6, 0, 40, 1, 0, 0, 6, 0, 40, 1, 0, 0, 6, 0, 40, 1, 0, 0, 6, 0, 40, 1, 0, 0, 6, 0, 40, 1, 0, 0, 6, 0, 40, 1, 0, 0, 6, 0, 40, 1, 0, 0, 6, 0, 40, 1, 0, 0, 6, 0, 40, 1, 0, 0, 6, 0, 40, 1, 0, 0, 6, 0, 40, 1, 0, 0, 6, 0, 40, 1, 0, 0, 6, 0, 40, 1, 0, 0, 6, 0, 26, 10, 43, 5, 56, 7, 255, 255, 255, 6, 42] (ret := 8) (params := 0) (locals := 1)
def Brfalse_S : MethodRec := Ex.meth [0, 2, 22, 254, 1, 10, 6, 44, 5, 0, 23, 11, 43, 5, 0, 22, 11, 43, 0, 7, 42] (ret := 8) (params := 1) (locals := 2)
def Brtrue_S : MethodRec := Ex.meth [0, 2, 10, 6, 44, 5, 0, 23, 11, 43, 5, 0, 22, 11, 43, 0, 7, 42] (ret := 8) (params := 1) (locals := 2)
def Gt : MethodRec := Ex.meth [0, 2, 31, 10, 254, 2, 10, 6, 44, 5, 0, 27, 11, 43, 5, 0, 26, 11, 43, 0, 7, 42] (ret := 8) (params := 1) (locals := 2)
def Lt : MethodRec := Ex.meth [0, 2, 31, 10, 254, 4, 10, 6, 44, 5, 0, 27, 11, 43, 5, 0, 26, 11, 43, 0, 7, 42] (ret := 8) (params := 1) (locals := 2)
def Ge : MethodRec := Ex.meth [0, 2, 31, 10, 254, 4, 22, 254, 1, 10, 6, 44, 5, 0, 27, 11, 43, 5, 0, 26, 11, 43, 0, 7, 42] (ret := 8) (params := 1) (locals := 2)
def Le : MethodRec := Ex.meth [0, 2, 31, 10, 254, 2, 22, 254, 1, 10, 6, 44, 5, 0, 27, 11, 43, 5, 0, 26, 11, 43, 0, 7, 42] (ret := 8) (params := 1) (locals := 2)
def Add : MethodRec := Ex.meth [0, 2, 3, 88, 10, 43, 0, 6, 42] (ret := 8) (params := 2) (locals := 1)
def Sub : MethodRec := Ex.meth [0, 2, 3, 89, 10, 43, 0, 6, 42] (ret := 8) (params := 2) (locals := 1)
def Mul : MethodRec := Ex.meth [0, 2, 3, 90, 10, 43, 0, 6, 42] (ret := 8) (params := 2) (locals := 1)
def Div : MethodRec := Ex.meth [0, 2, 3, 91, 10, 43, 0, 6, 42] (ret := 8) (params := 2) (locals := 1)
def Div_Un : MethodRec := Ex.meth [0, 2, 3, 92, 10, 43, 0, 6, 42] (ret := 8) (params := 2) (locals := 1)
def IsEven : MethodRec := Ex.meth [0, 2, 24, 93, 22, 254, 1, 10, 43, 0, 6, 42] (ret := 8) (params := 1) (locals := 1)
def IsEven_Un : MethodRec := Ex.meth [0, 2, 24, 94, 22, 254, 1, 10, 43, 0, 6, 42] (ret := 8) (params := 1) (locals := 1)
def Negate : MethodRec := Ex.meth [0, 2, 101, 10, 43, 0, 6, 42] (ret := 8) (params := 1) (locals := 1)
def BitAnd : MethodRec := Ex.meth [0, 2, 3, 95, 10, 43, 0, 6, 42] (ret := 8) (params := 2) (locals := 1)
def BitOr : MethodRec := Ex.meth [0, 2, 3, 96, 10, 43, 0, 6, 42] (ret := 8) (params := 2) (locals := 1)
def BitXor : MethodRec := Ex.meth [0, 2, 3, 97, 10, 43, 0, 6, 42] (ret := 8) (params := 2) (locals := 1)
def BitNot : MethodRec := Ex.meth [0, 2, 102, 10, 43, 0, 6, 42] (ret := 8) (params := 1) (locals := 1)
def Shl : MethodRec := Ex.meth [0, 2, 3, 31, 31, 95, 98, 10, 43, 0, 6, 42] (ret := 8) (params := 2) (locals := 1)
def Shr : MethodRec := Ex.meth [0, 2, 3, 31, 31, 95, 99, 10, 43, 0, 6, 42] (ret := 8) (params := 2) (locals := 1)
def LogicAnd : MethodRec := Ex.meth [0, 2, 44, 3, 3, 43, 1, 22, 10, 43, 0, 6, 42] (ret := 8) (params := 2) (locals := 1)
def LogicOr : MethodRec := Ex.meth [0, 2, 45, 3, 3, 43, 1, 23, 10, 43, 0, 6, 42] (ret := 8) (params := 2) (locals := 1)
def LogicNot : MethodRec := Ex.meth [0, 2, 22, 254, 1, 10, 43, 0, 6, 42] (ret := 8) (params := 1) (locals := 1)
def CreateObject : MethodRec := Ex.meth [0, 115, 45, 0, 0, 6, 10, 42] (ret := 8) (params := 0) (locals := 1)
def CustomObject_ctor : MethodRec := Ex.meth [2, 40, 45, 0, 0, 6, 0, 0, 2, 3, 23, 88, 125, 1, 0, 0, 4, 42] (ret := 8) (params := 1) (locals := 0) (isStatic := false)
def CreateCustomObject : MethodRec := Ex.meth [0, 2, 115, 41, 0, 0, 6, 10, 6, 123, 1, 0, 0, 4, 11, 43, 0, 7, 42] (ret := 8) (params := 1) (locals := 2)
def CreateArray : MethodRec := Ex.meth [0, 2, 141, 1, 0, 0, 1, 10, 22, 11, 43, 10, 0, 6, 7, 7, 158, 0, 7, 23, 88, 11, 7, 2, 254, 4, 12, 8, 45, 238, 6, 3, 148, 13, 43, 0, 9, 42] (ret := 8) (params := 2) (locals := 4)
def LoadString : MethodRec := Ex.meth [0, 114, 73, 0, 0, 112, 10, 43, 0, 6, 42] (ret := 8) (params := 0) (locals := 1)
def Object_ctor : MethodRec := Ex.meth [42] (ret := 8) (params := 0) (locals := 0) (isStatic := false)
def WriteLine : MethodRec := Ex.meth [0, 2, 40, 47, 0, 0, 6, 0, 114, 107, 0, 0, 112, 40, 47, 0, 0, 6, 0, 42] (ret := 8) (params := 1) (locals := 0)
def Write : MethodRec := { Ex.meth [] (params := 1) with impl := .internal .consoleWrite }


def tests : World := Ex.tiny [Empty, NonStatic, Fibonacci, Ldc_I4_M1, Ldc_I4_4, Ldc_I4_S, Ldc_I4, Ldc_R4, Ldc_R8, Locals, Parameters, CallEmpty, ReturnValue, CallConsoleWriteLine, Goto, Br, Brfalse_S, Brtrue_S, Gt, Lt, Ge, Le, Add, Sub, Mul, Div, Div_Un, IsEven, IsEven_Un, Negate, BitAnd, BitOr, BitXor, BitNot, Shl, Shr, LogicAnd, LogicOr, LogicNot, CreateObject, CustomObject_ctor, CreateCustomObject, CreateArray, LoadString, Object_ctor, WriteLine, Write] [⟨"x".toList, 8, 1, false, 0⟩] [0, 71, 87, 0, 111, 0, 119, 0, 33, 0, 32, 0, 67, 0, 111, 0, 110, 0, 115, 0, 111, 0, 108, 0, 101, 0, 46, 0, 87, 0, 114, 0, 105, 0, 116, 0, 101, 0, 76, 0, 105, 0, 110, 0, 101, 0, 32, 0, 119, 0, 111, 0, 114, 0, 107, 0, 115, 0, 32, 0, 110, 0, 111, 0, 119, 0, 46, 0, 46, 0, 46, 0, 0, 33, 73, 0, 32, 0, 97, 0, 109, 0, 32, 0, 97, 0, 32, 0, 67, 0, 35, 0, 32, 0, 115, 0, 116, 0, 114, 0, 105, 0, 110, 0, 103, 0, 0, 3, 10, 0, 0]

/-- `run` of tests.rs:18-20, in both builds. -/
def runs (m : MethodRec) (params : List Value) (r : Res RunResult) : Bool :=
  decide ((hostExecute .debug Ex.floats 10 3000 tests m params).1 = r) && decide ((hostExecute .release Ex.floats 10 3000 tests m params).1 = r)

-- tests.rs:22-25
#guard runs Empty [] (.ok .void)
-- tests.rs:27-30
#guard runs NonStatic [] (.ok (.err "Cannot use non-static method as entry point"))
-- tests.rs:32-35
#guard runs Fibonacci [.i32 10] (.ok (.number (.i32 55)))
-- tests.rs:37-40
#guard runs Ldc_I4_M1 [] (.ok (.number (.i32 (-1))))
-- tests.rs:42-45
#guard runs Ldc_I4_4 [] (.ok (.number (.i32 4)))
-- tests.rs:47-50
#guard runs Ldc_I4_S [] (.ok (.number (.i32 100)))
-- tests.rs:52-55
#guard runs Ldc_I4 [] (.ok (.number (.i32 1000)))
-- tests.rs:57-60
#guard runs Ldc_R4 [] (.ok (.number (.f32 1078530000)))
-- tests.rs:62-65
#guard runs Ldc_R8 [] (.ok (.number (.f64 4608238818256690525)))
-- tests.rs:67-70
#guard runs Locals [] (.ok (.number (.i32 42)))
-- tests.rs:72-78
#guard runs Parameters (List.replicate 256 (.i32 0)) (.ok (.number (.i32 10)))
-- tests.rs:80-83
#guard runs CallEmpty [] (.ok .void)
-- tests.rs:85-88
#guard runs ReturnValue [] (.ok (.number (.f32 1078530000)))
-- tests.rs:90-99
#guard runs CallConsoleWriteLine [] (.ok .void) && decide ((hostExecute .debug Ex.floats 10 3000 tests CallConsoleWriteLine []).2.world.output =
    "Wow! Console.WriteLine works now...\n".toList)
-- tests.rs:101-104
#guard runs Goto [] (.ok (.number (.i32 4)))
-- tests.rs:106-109
#guard runs Br [] (.ok (.number (.i32 4)))
-- tests.rs:111-115
#guard runs Brfalse_S [.i32 0] (.ok (.number (.i32 1)))
-- tests.rs:111-115
#guard runs Brfalse_S [.i32 1] (.ok (.number (.i32 0)))
-- tests.rs:117-121
#guard runs Brtrue_S [.i32 0] (.ok (.number (.i32 0)))
-- tests.rs:117-121
#guard runs Brtrue_S [.i32 1] (.ok (.number (.i32 1)))
-- tests.rs:123-127
#guard runs Gt [.i32 4] (.ok (.number (.i32 4)))
-- tests.rs:123-127
#guard runs Gt [.i32 100] (.ok (.number (.i32 5)))
-- tests.rs:129-133
#guard runs Lt [.i32 4] (.ok (.number (.i32 5)))
-- tests.rs:129-133
#guard runs Lt [.i32 100] (.ok (.number (.i32 4)))
-- tests.rs:135-139
#guard runs Ge [.i32 4] (.ok (.number (.i32 4)))
-- tests.rs:135-139
#guard runs Ge [.i32 100] (.ok (.number (.i32 5)))
-- tests.rs:141-145
#guard runs Le [.i32 4] (.ok (.number (.i32 5)))
-- tests.rs:141-145
#guard runs Le [.i32 100] (.ok (.number (.i32 4)))
-- tests.rs:147-151
#guard runs Add [.i32 4, .i32 8] (.ok (.number (.i32 12)))
-- tests.rs:152-155
#guard runs Add [.i32 9, .i32 10] (.ok (.number (.i32 19)))
-- tests.rs:165-170
#guard runs Sub [.i32 4, .i32 8] (.ok (.number (.i32 (-4))))
-- tests.rs:172-177
#guard runs Mul [.i32 4, .i32 8] (.ok (.number (.i32 32)))
-- tests.rs:179-184
#guard runs Div [.i32 100, .i32 4] (.ok (.number (.i32 25)))
-- tests.rs:185-188
#guard runs Div_Un [.i32 100, .i32 4] (.ok (.number (.i32 25)))
-- tests.rs:192
#guard runs IsEven [.i32 4] (.ok (.number (.i32 1)))
-- tests.rs:193
#guard runs IsEven [.i32 5] (.ok (.number (.i32 0)))
-- tests.rs:195
#guard runs IsEven_Un [.i32 100] (.ok (.number (.i32 1)))
-- tests.rs:196
#guard runs IsEven_Un [.i32 55] (.ok (.number (.i32 0)))
-- tests.rs:201
#guard runs Negate [.i32 1] (.ok (.number (.i32 (-1))))
-- tests.rs:202
#guard runs Negate [.i32 (-55)] (.ok (.number (.i32 55)))
-- tests.rs:212-215
#guard runs BitAnd [.i32 10, .i32 14] (.ok (.number (.i32 10)))
-- tests.rs:217-220
#guard runs BitOr [.i32 10, .i32 14] (.ok (.number (.i32 14)))
-- tests.rs:222-225
#guard runs BitXor [.i32 10, .i32 14] (.ok (.number (.i32 4)))
-- tests.rs:227
#guard runs BitNot [.i32 10] (.ok (.number (.i32 (-11))))
-- tests.rs:229-232
#guard runs Shl [.i32 1000, .i32 2] (.ok (.number (.i32 4000)))
-- tests.rs:234-237
#guard runs Shr [.i32 1000, .i32 2] (.ok (.number (.i32 250)))
-- tests.rs:240-258
#guard runs LogicAnd [.i32 0, .i32 0] (.ok (.number (.i32 0)))
-- tests.rs:240-258
#guard runs LogicAnd [.i32 0, .i32 1] (.ok (.number (.i32 0)))
-- tests.rs:240-258
#guard runs LogicAnd [.i32 1, .i32 0] (.ok (.number (.i32 0)))
-- tests.rs:240-258
#guard runs LogicAnd [.i32 1, .i32 1] (.ok (.number (.i32 1)))
-- tests.rs:260-278
#guard runs LogicOr [.i32 0, .i32 0] (.ok (.number (.i32 0)))
-- tests.rs:260-278
#guard runs LogicOr [.i32 0, .i32 1] (.ok (.number (.i32 1)))
-- tests.rs:260-278
#guard runs LogicOr [.i32 1, .i32 0] (.ok (.number (.i32 1)))
-- tests.rs:260-278
#guard runs LogicOr [.i32 1, .i32 1] (.ok (.number (.i32 1)))
-- tests.rs:280-284
#guard runs LogicNot [.i32 0] (.ok (.number (.i32 1)))
-- tests.rs:280-284
#guard runs LogicNot [.i32 1] (.ok (.number (.i32 0)))
-- tests.rs:286-289
#guard runs CreateObject [] (.ok .void)
-- tests.rs:291-297
#guard runs CreateCustomObject [.i32 4] (.ok (.number (.i32 5)))
-- tests.rs:299-305
#guard runs CreateArray [.i32 4, .i32 2] (.ok (.number (.i32 2)))
-- tests.rs:307-320: the test looks at an object of the interpreter's heap, which is freed before (C69)
#guard runs LoadString [] (.ub)

end Clr.Replay
