import Verif.Parser.Example
/-!
# The parser does what the tests of the project expect

The unit tests of gcode-parser_test.cc, run on the model. These are tests of the model, not properties: they
show that `Parser.parseBlock` agrees with the program where its authors wrote down what they expect.

Not included are `arc_generation` (needs trigonometric functions, see `Conformance/Arc.lean`) and the conversion of an
axis out of range in `axes_letter_conversion`. Numbers are exact fractions, so `EXPECT_NEAR` becomes equality. The sine
and its like are given by a table of the few values in the tests.
-/
namespace BeagleG.Conformance.Parser
open BeagleG.Parser Text

/-- An optional sign; string-util.cc 105-107 skips white space and `+`, `std::from_chars` knows `-`. -/
def readNumber (l : List Byte) : Option (Rat × List Byte) :=
  let l := skipWhite l
  let l := (after1 43 l).getD l
  let unsigned (l : List Byte) : Option (Rat × List Byte) :=
    match after1 46 l with
    | some r => if takeDigits r = [] then none else readDecimal (48 :: l)
    | none => readDecimal l
  match after1 45 l with
  | some r => (unsigned r).map fun x => (-x.1, x.2)
  | none => unsigned l

/-- Table of a function. -/
def table (t : List (Rat × Rat)) (x : Rat) : Rat := (t.lookup x).getD x

/-- Fractions, with tables for the functions that have no rational values in general. -/
def num : Num Rat :=
  { ratNum with
    strtof := readNumber
    floor := fun a => (a.num.fdiv a.den : Int)
    ceil := fun a => -((-a).num.fdiv a.den : Int)
    fmod := fun a b => a - b * ((a / b).num.tdiv (a / b).den : Int)
    pow := fun a b => a ^ b.num.toNat
    exp := fun x => x + 1000
    log := fun x => x + 2000
    tanDeg := fun x => x + 3000
    sqrt := table [(4, 2)]
    sinDeg := table [(90, 1), (30, 1 / 2)]
    cosDeg := table [(60, 1 / 2)]
    asinDeg := table [(1 / 2, 30)]
    acosDeg := table [(1 / 2, 60)]
    atan2Deg := fun a b => if a = b then 45 else 0 }

/-- Lines 16-22: `HOME_X` etc. -/
def home : Axis → Rat
  | .X => 123
  | .Y => 456
  | .Z => 789
  | .A => 201
  | .B => 202
  | .C => 203
  | .E => 204
  | _ => 0

/-- Line 23. -/
def probePosition : Rat := 42

/-- `ParseTester`, lines 39-124. -/
def receiver : Receiver Rat where
  accepts _ := true
  clamp _ p := p
  probe _ := some probePosition
  reads _ := false
  takes _ := false
  discards _ := true
  load _ p := p
  allowM111 := false

/-- Which calls are counted. -/
inductive Call where
  | coordinated_move
  | unprocessed

/-- The counted calls. -/
def Call.is : Call → Event Rat → Bool
  | .coordinated_move, .coordinatedMove _ _ => true
  | .unprocessed, .unprocessed _ _ => true
  | _, _ => false

/-- A step of a test. -/
inductive Step where
  /-- `TestParseLine`, result not looked at -/
  | run (line : String)
  /-- `EXPECT_TRUE`, `EXPECT_FALSE` of `TestParseLine` -/
  | line (line : String) (good : Bool)
  /-- `abs_pos` -/
  | pos (a : Axis) (v : Rat)
  | posNot (a : Axis) (v : Rat)
  /-- `parser_offset` -/
  | off (a : Axis) (v : Rat)
  | param (name : String) (v : Rat)
  | calls (c : Call) (n : Nat)
  | feed (v : Rat)

/-- The last move the receiver has seen. -/
def lastMove : List (Event Rat) → Option (Rat × Axes Rat)
  | [] => none
  | .coordinatedMove f p :: _ => some (f, p)
  | .rapidMove f p :: _ => some (f, p)
  | _ :: l => lastMove l

/-- The last offset the receiver has been told. -/
def lastOffset : List (Event Rat) → Option (Axes Rat)
  | [] => none
  | .originOffset o _ :: _ => some o
  | _ :: l => lastOffset l

/-- `error_count` -/
def errors (l : List (Event Rat)) : Nat := l.countP fun
  | .error => true
  | _ => false

/-- Runs a test. -/
def passes : State Rat → List Step → Bool
  | _, [] => true
  | st, .run s :: t => (parseBlock num receiver 100 st (text s)).ends fun st => passes st t
  | st, .line s good :: t =>
    (parseBlock num receiver 100 st (text s)).ends fun st' =>
      (errors st'.log == errors st.log) == good && passes st' t
  | st, .pos a v :: t => (lastMove st.log).any (fun m => m.2 a == v) && passes st t
  | st, .posNot a v :: t => (lastMove st.log).any (fun m => m.2 a != v) && passes st t
  | st, .off a v :: t => (lastOffset st.log).any (fun m => m a == v) && passes st t
  | st, .param n v :: t => (st.params.map fun p => (p (text n)).getD 0) == some v && passes st t
  | st, .calls c n :: t => st.log.countP c.is == n && passes st t
  | st, .feed v :: t => (lastMove st.log).any (fun m => m.1 == v) && passes st t

/-- The parser of `ParseTester`. -/
def start : State Rat := initial num (some fun _ => none) home

/-- `TEST(GCodeParserTest, simple_move)` -/
def simple_move : List Step :=
  [.run "G1 X100",
   .calls .coordinated_move 1,
   .pos .X (home .X + 100),
   .pos .Y (home .Y),
   .pos .Z (home .Z),
   .pos .A (home .A),
   .run "G1 X10 Y10 Z-20",
   .calls .coordinated_move 2,
   .pos .X (home .X + 10),
   .pos .Y (home .Y + 10),
   .pos .Z (home .Z - 20)]

example : passes start simple_move = true := by decide +kernel

/-- `TEST(GCodeParserTest, simple_move_non_euclidian)` -/
def simple_move_non_euclidian : List Step :=
  [.run "G1 X100 A50",
   .calls .coordinated_move 1,
   .pos .X (home .X + 100),
   .pos .A (home .A + 50),
   .pos .Y (home .Y),
   .pos .Z (home .Z)]

example : passes start simple_move_non_euclidian = true := by decide +kernel

/-- `TEST(GCodeParserTest, setting_feedrate)` -/
def setting_feedrate : List Step :=
  [.run "F100",
   .calls .coordinated_move 1,
   .feed (100.0 / 60.0)]

example : passes start setting_feedrate = true := by decide +kernel

/-- `TEST(GCodeParserTest, ParsingCompactNumbers)` -/
def ParsingCompactNumbers : List Step :=
  [.line "G1Y0010Z0011X0012" true,
   .calls .coordinated_move 1,
   .pos .X (home .X + 12),
   .pos .Y (home .Y + 10),
   .pos .Z (home .Z + 11)]

example : passes start ParsingCompactNumbers = true := by decide +kernel

/-- `TEST(GCodeParserTest, ParsingComments)` -/
def ParsingComments : List Step :=
  [.line "G1 X10 (This is some comment) Y11 Z12 ; end of line" true,
   .calls .coordinated_move 1,
   .pos .X (home .X + 10),
   .pos .Y (home .Y + 11),
   .pos .Z (home .Z + 12)]

example : passes start ParsingComments = true := by decide +kernel

/-- `TEST(GCodeParserTest, VariousNumbersOfLeadingZero)` -/
def VariousNumbersOfLeadingZero : List Step :=
  [.line "G1X.1Y0.2Z00000.4" true,
   .calls .coordinated_move 1,
   .pos .X (home .X + 0.1),
   .pos .Y (home .Y + 0.2),
   .pos .Z (home .Z + 0.4)]

example : passes start VariousNumbersOfLeadingZero = true := by decide +kernel

/-- `TEST(GCodeParserTest, SpacesAroundNumbers)` -/
def SpacesAroundNumbers : List Step :=
  [.line "G\t1 X 2 \tY\t4 Z \t5" true,
   .calls .coordinated_move 1,
   .pos .X (home .X + 2),
   .pos .Y (home .Y + 4),
   .pos .Z (home .Z + 5)]

example : passes start SpacesAroundNumbers = true := by decide +kernel

/-- `TEST(GCodeParserTest, SquishedTogetherNumbers)` -/
def SquishedTogetherNumbers : List Step :=
  [.line "G1Y0X17Z23" true,
   .calls .coordinated_move 1,
   .pos .X (home .X + 17),
   .pos .Y (home .Y + 0),
   .pos .Z (home .Z + 23)]

example : passes start SquishedTogetherNumbers = true := by decide +kernel

/-- `TEST(GCodeParserTest, InvalidNumbers)` -/
def InvalidNumbers0 : List Step :=
  [.line "G1X--17" false,
   .calls .coordinated_move 0]

example : passes start InvalidNumbers0 = true := by decide +kernel

/-- `TEST(GCodeParserTest, InvalidNumbers)` -/
def InvalidNumbers1 : List Step :=
  [.line "G1X..1" false,
   .calls .coordinated_move 0]

example : passes start InvalidNumbers1 = true := by decide +kernel

/-- `TEST(GCodeParserTest, absolute_relative)` -/
def absolute_relative : List Step :=
  [.run "G90",
   .run "G1 X10 Y11 Z12",
   .pos .X (home .X + 10),
   .pos .Y (home .Y + 11),
   .pos .Z (home .Z + 12),
   .run "G1 X20 Y21 Z22",
   .pos .X (home .X + 20),
   .pos .Y (home .Y + 21),
   .pos .Z (home .Z + 22),
   .run "G91",
   .run "G1 X5 Y6 Z7",
   .pos .X (home .X + 20 + 5),
   .pos .Y (home .Y + 21 + 6),
   .pos .Z (home .Z + 22 + 7),
   .run "G92 X0 Y0",
   .run "G1 X17 Y11",
   .pos .X (home .X + 20 + 5 + 17),
   .pos .Y (home .Y + 21 + 6 + 11)]

example : passes start absolute_relative = true := by decide +kernel

/-- `TEST(GCodeParserTest, set_origin_G9)` -/
def set_origin_G92 : List Step :=
  [.run "G1 X100 Y100",
   .off .X (home .X),
   .off .Y (home .Y),
   .off .Z (home .Z),
   .run "G92 X5 Y7",
   .off .X (home .X + 100 - 5),
   .off .Y (home .Y + 100 - 7),
   .run "G1 X12 Y17",
   .pos .X (home .X + 100 - 5 + 12),
   .pos .Y (home .Y + 100 - 7 + 17),
   .run "G92 X3 Y4",
   .run "G1 X1 Y1",
   .pos .X (home .X + 100 - 5 + 12 - 3 + 1),
   .pos .Y (home .Y + 100 - 7 + 17 - 4 + 1),
   .run "G92.2",
   .run "G1 X1 Y1",
   .pos .X (home .X + 1),
   .pos .Y (home .Y + 1),
   .run "G92 X0",
   .run "G1 X1 Y1",
   .pos .X (home .X + 1 + 1),
   .pos .Y (home .Y + 100 - 7 + 17 - 4 + 1),
   .run "G92.2",
   .run "G1 X1 Y1",
   .pos .X (home .X + 1),
   .pos .Y (home .Y + 1),
   .run "G92.3",
   .run "G1 X7 Y8",
   .pos .X (home .X + 1 + 7),
   .pos .Y (home .Y + 100 - 7 + 17 - 4 + 8),
   .run "G92.1",
   .run "G1 X1 Y1",
   .pos .X (home .X + 1),
   .pos .Y (home .Y + 1)]

example : passes start set_origin_G92 = true := by decide +kernel

/-- `TEST(GCodeParserTest, probe_axis)` -/
def probe_axis : List Step :=
  [.run "G30 Z3",
   .off .Z (probePosition - 3),
   .run "G1 Z1",
   .pos .Z (probePosition - 3 + 1)]

example : passes start probe_axis = true := by decide +kernel

/-- `TEST(GCodeParserTest, numeric_parameters)` -/
def numeric_parameters : List Step :=
  [.line "#1=25" true,
   .param "1" (25),
   .line "G1 X#1" true,
   .pos .X (home .X + 25),
   .line "(set param) #1=50" true,
   .param "1" (50),
   .line "G1 X#1" true,
   .pos .X (home .X + 50),
   .line "#1=75 (set param)" true,
   .param "1" (75),
   .line "G1 X#1" true,
   .pos .X (home .X + 75),
   .line "G1 #1=100 X#1" true,
   .param "1" (100),
   .pos .X (home .X + 100),
   .line "#1=25" true,
   .line "#2=50" true,
   .line "#3=75" true,
   .param "1" (25),
   .param "2" (50),
   .param "3" (75),
   .line "G1 X#1 Y#2 Z#3" true,
   .pos .X (home .X + 25),
   .pos .Y (home .Y + 50),
   .pos .Z (home .Z + 75),
   .line "G1 #1=100 #2=200 #3=300 X#1 Y#2 Z#3" true,
   .pos .X (home .X + 100),
   .pos .Y (home .Y + 200),
   .pos .Z (home .Z + 300),
   .line "G1#1=150#2=250#3=350X#1Y#2Z#3" true,
   .pos .X (home .X + 150),
   .pos .Y (home .Y + 250),
   .pos .Z (home .Z + 350),
   .line "#" false,
   .line "#G1 X20" false,
   .line "#5400=100" false,
   .line "#1=" false,
   .line "#1=G1 X10" false,
   .posNot .X (home .X + 10),
   .line "G1 X#0" true,
   .pos .X (home .X + 0),
   .line "#0=42" false,
   .param "0" (0),
   .line "#1=25" true,
   .param "1" (25),
   .line "#2=1" true,
   .param "2" (1),
   .line "G1 X##2" true,
   .pos .X (home .X + 25)]

example : passes start numeric_parameters = true := by decide +kernel

/-- `TEST(GCodeParserTest, alphanumeric_parameters)` -/
def alphanumeric_parameters : List Step :=
  [.line "#foo=25" true,
   .line "#BAR=50" true,
   .line "#<b a z>=75" true,
   .line "#<b a z=1" false,
   .param "foo" (25),
   .param "bar" (50),
   .param "baz" (75),
   .line "G1 X#FOO Y#<B ar> Z#baz" true,
   .pos .X (home .X + 25),
   .pos .Y (home .Y + 50),
   .pos .Z (home .Z + 75),
   .line "G1 #foo=100 #bar=200 #baz=300 X#foo Y#bar Z#baz" true,
   .pos .X (home .X + 100),
   .pos .Y (home .Y + 200),
   .pos .Z (home .Z + 300),
   .line "G1#foo=150#bar=250#baz=350X#foo Y#bar Z#baz" true,
   .pos .X (home .X + 150),
   .pos .Y (home .Y + 250),
   .pos .Z (home .Z + 350),
   .line "G1 #foo=150#bar=250#baz=350X#fooY#barZ#baz" false,
   .line "G1 #foo=160#bar=260#baz=360X#<foo>Y#<bar>Z#<baz>" true,
   .pos .X (home .X + 160),
   .pos .Y (home .Y + 260),
   .pos .Z (home .Z + 360),
   .line "#1=25" true,
   .param "1" (25),
   .line "#index=1" true,
   .param "index" (1),
   .line "G1 X##index" true,
   .pos .X (home .X + 25),
   .line "G1 X##<index>" true,
   .pos .X (home .X + 25),
   .line "#<3>=42" false]

example : passes start alphanumeric_parameters = true := by decide +kernel

/-- `TEST(GCodeParserTest, SetCoordinateSystemG1)` -/
def SetCoordinateSystemG10 : List Step :=
  [.run "G10 L2 P2 X100 Y100 Z0",
   .param "5220" (1),
   .off .X (home .X),
   .off .Y (home .Y),
   .off .Z (home .Z),
   .run "G55",
   .param "5220" (2),
   .off .X (home .X + 100),
   .off .Y (home .Y + 100),
   .off .Z (home .Z),
   .run "G1 X0 Y0 Z0",
   .pos .X (home .X + 100),
   .pos .Y (home .Y + 100),
   .pos .Z (home .Z),
   .line "G10 L2 P3 X25 Y50 Z10" true,
   .line "G56" true,
   .off .X (home .X + 25),
   .off .Y (home .Y + 50),
   .off .Z (home .Z + 10),
   .pos .X (home .X + 100),
   .pos .Y (home .Y + 100),
   .pos .Z (home .Z),
   .run "G1 X0 Y0 Z0",
   .pos .X (home .X + 25),
   .pos .Y (home .Y + 50),
   .pos .Z (home .Z + 10)]

example : passes start SetCoordinateSystemG10 = true := by decide +kernel

/-- `TEST(GCodeParserTest, SetCoordinateSystemG10_G90_G9)` -/
def SetCoordinateSystemG10_G90_G91 : List Step :=
  [.run "G90 G10 L2 P2 X100 Y100 Z0",
   .run "G55",
   .param "5220" (2),
   .off .X (home .X + 100),
   .off .Y (home .Y + 100),
   .off .Z (home .Z),
   .run "G91 G10 L2 P2 X5 Y5 Z5",
   .off .X (home .X + 100 + 5),
   .off .Y (home .Y + 100 + 5),
   .off .Z (home .Z + 5)]

example : passes start SetCoordinateSystemG10_G90_G91 = true := by decide +kernel

/-- `TEST(GCodeParserTest, expressions)` -/
def expressions : List Step :=
  [.line "#1=[100 + 20]" true,
   .param "1" (100 + 20),
   .line "#1=[100 - 20]" true,
   .param "1" (100 - 20),
   .line "#1=[100 / 20]" true,
   .param "1" (100 / 20),
   .line "#1=[100 * 20]" true,
   .param "1" (100 * 20),
   .line "#1=[2 ** 3]" true,
   .param "1" (8),
   .line "#1=[5 MOD 2]" true,
   .param "1" (1),
   .line "#1=[-5 MOD 2]" true,
   .param "1" (1),
   .line "#1=[1 AND 1]" true,
   .param "1" (1),
   .line "#1=[1 AND 0]" true,
   .param "1" (0),
   .line "#1=[0 AND 1]" true,
   .param "1" (0),
   .line "#1=[0 AND 0]" true,
   .param "1" (0),
   .line "#1=[1 OR 1]" true,
   .param "1" (1),
   .line "#1=[1 OR 0]" true,
   .param "1" (1),
   .line "#1=[0 OR 1]" true,
   .param "1" (1),
   .line "#1=[0 OR 0]" true,
   .param "1" (0),
   .line "#1=[1 XOR 1]" true,
   .param "1" (0),
   .line "#1=[1 XOR 0]" true,
   .param "1" (1),
   .line "#1=[0 XOR 1]" true,
   .param "1" (1),
   .line "#1=[0 XOR 0]" true,
   .param "1" (0),
   .line "#1=[2.0 / 3 * 1.5 - 5.5 / 11.0]" true,
   .param "1" (((2.0 / 3) * 1.5) - (5.5 / 11.0)),
   .line "#1=abs[-100]" true,
   .param "1" (100),
   .line "#1=abs[100]" true,
   .param "1" (100),
   .line "#1=acos[.5]" true,
   .param "1" (60),
   .param "1" (60),
   .line "#1=asin[.5]" true,
   .param "1" (30),
   .param "1" (30),
   .line "#1=atan[4]/[4]" true,
   .param "1" (45),
   .param "1" (45),
   .line "#1=cos[60]" true,
   .param "1" (1 / 2),
   .line "#1=exp[4]" true,
   .param "1" (num.exp 4),
   .line "#1=fix[4.5]" true,
   .param "1" (4),
   .line "#1=fup[4.5]" true,
   .param "1" (5),
   .line "#1=ln[10]" true,
   .param "1" (num.log 10),
   .line "#1=round[4.4]" true,
   .param "1" (4),
   .line "#1=round[4.5]" true,
   .param "1" (5),
   .line "#1=sin[30]" true,
   .param "1" (1 / 2),
   .line "#1=sqrt[4]" true,
   .param "1" (2),
   .line "#1=tan[30]" true,
   .param "1" (num.tanDeg 30)]

example : passes start expressions = true := by decide +kernel

/-- `TEST(GCodeParserTest, precedence)` -/
def precedence : List Step :=
  [.line "#1=[1 + 1]" true,
   .param "1" (1 + 1),
   .line "#1=[6 + 15 / 3]" true,
   .param "1" (6 + 15 / 3),
   .line "#1=[[6 + 15] / 3]" true,
   .param "1" ((6 + 15) / 3),
   .line "#1=[3 * 2**3]" true,
   .param "1" (3 * 8)]

example : passes start precedence = true := by decide +kernel

/-- `TEST(GCodeParserTest, NegativeNumbers)` -/
def NegativeNumbers : List Step :=
  [.line "#1=[1 + -1]" true,
   .param "1" (1 + -1),
   .line "#1=[1 + --1]" false,
   .line "#1=[1 + -[-1]]" true,
   .param "1" (1 + (-1 * -1)),
   .line "#1=42" true,
   .line "#2=[-#1]" true,
   .param "2" (-42),
   .line "#1=[sin[90] * -1]" true,
   .param "1" (-1),
   .line "#1=[-sin[90]]" true,
   .param "1" (-1)]

example : passes start NegativeNumbers = true := by decide +kernel

/-- `TEST(GCodeParserTest, Conditional)` -/
def Conditional : List Step :=
  [.line "#1=1" true,
   .line "#2=100" true,
   .line "IF [#1 LE 0] THEN #2=1" true,
   .param "1" (1),
   .param "2" (100),
   .line "IF [#1 GE 0] THEN #2=1" true,
   .param "2" (1),
   .line "#1=-1" true,
   .line "IF [#1 < 0] THEN #2=1 ELSE #2=0" true,
   .line "IF [#1 == 0] THEN #3=1 ELSE #3=0" true,
   .line "IF [#1 > 0] THEN #4=1 ELSE #4=0" true,
   .line "IF [#1 != 0] THEN #5=1 ELSE #5=0" true,
   .param "1" (-1),
   .param "2" (1),
   .param "3" (0),
   .param "4" (0),
   .param "5" (1),
   .line "#1=-100" true,
   .line "IF [#1<0] THEN #2=-1 ELSEIF [#1==0] THEN #2=0 ELSE #2=1" true,
   .param "2" (-1),
   .line "#1=0" true,
   .line "IF [#1<0] THEN #2=-1 ELSEIF [#1==0] THEN #2=0 ELSE #2=1" true,
   .param "2" (0),
   .line "#1=100" true,
   .line "IF [#1<0] THEN #2=-1 ELSEIF [#1==0] THEN #2=0 ELSE #2=1" true,
   .param "2" (1),
   .line "#1=1" true,
   .line "IF" false,
   .line "IF [#1=1]" false,
   .line "IF [#1==1]" false,
   .line "IF [#1==1] THEN" false,
   .line "IF [#1==0] THEN #2=1 ELSE" false,
   .line "IF [#1==0] THEN" true,
   .line "IF [#1==1] THEN #2=1 ELSE" true]

example : passes start Conditional = true := by decide +kernel

/-- `TEST(GCodeParserTest, AssignmentOperators)` -/
def AssignmentOperators : List Step :=
  [.line "#1=10" true,
   .param "1" (10),
   .line "#1++" true,
   .param "1" (11),
   .line "#1--" true,
   .param "1" (10),
   .line "#1+=5" true,
   .param "1" (15),
   .line "#1-=5" true,
   .param "1" (10),
   .line "#1*=2" true,
   .param "1" (20),
   .line "#1/=2" true,
   .param "1" (10)]

example : passes start AssignmentOperators = true := by decide +kernel

/-- `TEST(GCodeParserTest, TernaryOperation)` -/
def TernaryOperation : List Step :=
  [.line "#1=0" true,
   .line "#2=[#1<=0] ? -1 : 1" true,
   .param "2" (-1),
   .line "#2=[#1>0] ? -1 : 1" true,
   .param "2" (1),
   .line "#1=10" true,
   .line "#2=10" true,
   .line "#3=[[#1>0] AND [#2>0]] ? 1 : 0" true,
   .param "3" (1),
   .line "#1=10" true,
   .line "#2=-10" true,
   .line "#3=[[#1>0] AND [#2>0]] ? [#1*#2] : 0" true,
   .param "3" (0),
   .line "#2=10" true,
   .line "#3=[[#1>0] AND [#2>0]] ? [#1*#2] : 0" true,
   .param "3" (100)]

example : passes start TernaryOperation = true := by decide +kernel

/-- `TEST(GCodeParserTest, WhileLoop)` -/
def WhileLoop : List Step :=
  [.line "#1=0" true,
   .line "#2=1" true,
   .line "WHILE [#1 < 10] DO" true,
   .line "  #2 += #2" true,
   .line "  #1++" true,
   .line "END" true,
   .param "1" (10),
   .param "2" (1024)]

example : passes start WhileLoop = true := by decide +kernel

/-- `TEST(GCodeParserTest, Unprocessed)` -/
def Unprocessed : List Step :=
  [.line "M181 S300" true,
   .calls .unprocessed 1]

example : passes start Unprocessed = true := by decide +kernel

/-- `TEST(GCodeParserTest, CoordinateSystemNamesRepresentedIn5220)` -/
def coordSystems : List Step :=
  (["G54", "G55", "G56", "G57", "G58", "G59", "G59.1", "G59.2", "G59.3"].zipIdx.flatMap fun s =>
    [.line s.1 true, .param "5220" (s.2 + 1 : Nat)]) ++
  [.line "G59.4" false, .param "5220" 9]

example : passes start coordSystems = true := by decide +kernel

/-! `TEST(GCodeParserTest, axes_letter_conversion)` -/

example : (text "XxzAa%").map letterAxis = [some .X, some .X, some .Z, some .A, some .A, none] := by decide +kernel

end BeagleG.Conformance.Parser
