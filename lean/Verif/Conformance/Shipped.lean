import Verif.Conformance.Base
/- /repo/test/shipped_header/roundtrip.cpp, /repo/examples/hello_s2s.cpp with the file that
/repo/examples/make_sample.py writes -/
namespace S2S.Conformance.Shipped

/-! roundtrip.cpp -/

def xRecord : List Field := [basic "x" u16 2]

def everyPath : List Field :=
  [.plain "magic" (.fstr 3) (.strCmp true [0x53, 0x32, 0x53, 0]),
   basic "count" u32 4,
   vecOf "data" u16 "count",
   .plain "pair" (.fbuf (.scalar u16) 2) .none,
   .plain "nested" (.record xRecord) .none,
   basic "tag" u32 4,
   .union "body" (.matchField "tag" u32 [(u32, 0xcafed00d), (u32, 0xdeadbeef)])
     [.mk (.num u32 4) .none, .mk (.record xRecord) .none] .none]

/-- `populated()`: what is not assigned is as default construction leaves it. -/
def populated : List Val :=
  [ints [0, 0, 0, 0], .int 0, ints [0x1122, 0x3344], ints [0x7788, 0x99aa], .seq [.int 0x5566], .int 0,
   .var 1 (.seq [.int 0x5566])]

def back : List Val :=
  [ints [0x53, 0x32, 0x53, 0], .int 2, ints [0x1122, 0x3344], ints [0x7788, 0x99aa], .seq [.int 0x5566],
   .int 0xdeadbeef, .var 1 (.seq [.int 0x5566])]

def backLittle : List Byte :=
  [0x53, 0x32, 0x53, 0, 2, 0, 0, 0, 0x22, 0x11, 0x44, 0x33, 0x88, 0x77, 0xaa, 0x99, 0x66, 0x55,
   0xef, 0xbe, 0xad, 0xde, 0x66, 0x55]

def backBig : List Byte :=
  [0x53, 0x32, 0x53, 0, 0, 0, 0, 2, 0x11, 0x22, 0x33, 0x44, 0x77, 0x88, 0x99, 0xaa, 0x55, 0x66,
   0xde, 0xad, 0xbe, 0xef, 0x55, 0x66]

example : Writes .little everyPath populated backLittle := ⟨rfl, rfl⟩
example : Writes .big everyPath populated backBig := ⟨rfl, rfl⟩
example : Reads .little everyPath backLittle back := by rfl
example : Reads .big everyPath backBig back := by rfl

/-! hello_s2s.cpp -/

def message : List Field := [basic "len" u64 8, strOf "text" "len"]

/-- `hello, s2s` -/
def hello : List Byte := [0x68, 0x65, 0x6c, 0x6c, 0x6f, 0x2c, 0x20, 0x73, 0x32, 0x73]

def sample : List Byte := [10, 0, 0, 0, 0, 0, 0, 0] ++ hello

example : Reads .little message sample [.int 10, ints (hello.map fun b => (b.toNat : Int))] := by rfl

end S2S.Conformance.Shipped
