import Verif.Model.Ssa
import Verif.Model.SubRip
import Verif.Model.StlText
import Verif.Model.WebVtt
import Verif.Model.Collect
import Verif.Model.Iso6937
import Verif.Model.Utf8
import Verif.Model.StlWriter
import Verif.Model.StlReader

/-!
# The model run on the project's own tests

The assertions of /repo/test/*.cc that do not need the project's private test files, evaluated in the
model by the kernel.  These are tests of the model, not proofs of properties: they show that the
definitions the theorems speak about compute what the project's authors say the code computes.

One assertion of the project does not hold of the model, and by reading the code does not hold of the code
either: see `ssa_test3_first_line`.
-/

namespace LibSub.Conformance

/-- `fabs (a - b) < 1e-5`, the tolerance of test/ssa_reader_test.cc. -/
def near (a b : Rat) : Bool := decide (-(1 / 100000) < a - b) && decide (a - b < 1 / 100000)

def nearOpt : Option Rat → Option Rat → Bool
  | none, none => true
  | some a, some b => near a b
  | _, _ => false

/-- What the tests look at in a `Block`. -/
def blockOk (want got : Block) : Bool :=
  want.text == got.text && want.font == got.font && nearOpt want.fontSize.prop got.fontSize.prop &&
  want.fontSize.pts == got.fontSize.pts && want.bold == got.bold && want.italic == got.italic &&
  want.underline == got.underline

def all2 {α : Type} (f : α → α → Bool) : List α → List α → Bool
  | [], [] => true
  | a :: as, b :: bs => f a b && all2 f as bs
  | _, _ => false

/-- What the tests look at in a `Line`. -/
def lineOk (want got : Line) : Bool :=
  nearOpt want.vpos.prop got.vpos.prop && want.vpos.line == got.vpos.line && want.vpos.ref == got.vpos.ref &&
  near want.hpos.prop got.hpos.prop && want.hpos.ref == got.hpos.ref && all2 blockOk want.blocks got.blocks

def subOk (want got : Subtitle) : Bool :=
  want.from_ == got.from_ && want.to_ == got.to_ && all2 lineOk want.lines got.lines

/-- The subtitles of a file after `collect`, compared with what a test expects. -/
def agree (want : List Subtitle) (got : R (List Raw)) : Bool :=
  match got with
  | .error _ => false
  | .ok raws => match collect raws with
    | .error _ => false
    | .ok subs => all2 subOk want subs

/-- `Time::from_hms` -/
def hms (h m s ms : Int) : Time := ⟨h * 3600 + m * 60 + s, ms, some ⟨1000, 1⟩⟩

/-- `Time::from_hmsf` without a rate -/
def hmsf (h m s f : Int) : Time := ⟨h * 3600 + m * 60 + s, f, none⟩


/-- test/data/test.srt -/
def testSrt : Str := List.flatten [
  b!"1\n",
  b!"00:00:41,090 --> 00:00:42,210\n",
  b!"This is a subtitle\n",
  b!"and that's a line break\n",
  b!"\n",
  b!"2\n",
  b!"00:01:01,010 --> 00:01:02,100\n",
  b!"This is some <b>bold</b> and some <b><i>bold italic</b></i> and some <u>underlined</u>.\n"]

/-- test/data/test2.srt -/
def test2Srt : Str := List.flatten [
  b!"1\n",
  b!"00:01:49,200 --> 00:01:52,351\n",
  b!"This is a subtitle, and it goes \n",
  b!"over two lines.\n",
  b!"\n",
  b!"2\n",
  b!"00:01:52,440 --> 00:01:54,351\n",
  b!"<b>We have emboldened this</b>\n",
  b!"\n",
  b!"3\n",
  b!"00:01:54,440 --> 00:01:56,590\n",
  b!"<i>And italicised this.</i>\n",
  b!"\n",
  b!"4\n",
  b!"00:01:56,680 --> 00:01:58,955\n",
  b!"Shall I compare thee to a summers' day?\n",
  b!"\n",
  b!"5\n",
  b!"00:02:00,840 --> 00:02:03,400\n",
  b!"Is this a dagger I see before me?\n",
  b!"\n",
  b!"6\n",
  b!"00:03:54,560 --> 00:03:56,471\n",
  b!"Hello world.\n",
  b!"\n",
  b!"7\n",
  b!"00:04:50,123 --> 00:04:55,023\n",
  b!"<i>Some italics over\n",
  b!"multiple lines</i>\n"]

/-- test/data/test3.srt -/
def test3Srt : Str := List.flatten [
  b!"1\n",
  b!"00:01:49,200 --> 00:01:52,351\n",
  b!"{\\an1}Let's go bottom left\n",
  b!"\n",
  b!"2\n",
  b!"00:01:52,440 --> 00:01:54,351\n",
  b!"Now back to the middle\n",
  b!"\n",
  b!"3\n",
  b!"00:01:54,440 --> 00:01:56,590\n",
  b!"{\\an9}And top right\n",
  b!"\n",
  b!"4\n",
  b!"00:01:56,680 --> 00:01:58,955\n",
  b!"And here we are again\n"]

/-- test/data/newline.srt -/
def newlineSrt : Str := List.flatten [
  b!"1\n",
  b!"00:01:08,234 --> 00:01:10,570\n",
  b!"Du fühlst dich danach besser.\u2028Okay, Kleiner?\n",
  b!"\n",
  b!"2\n",
  b!"00:01:40,642 --> 00:01:42,769\n",
  b!"Sie kann es nicht machen\n",
  b!"wenn du dich bewegst.\n"]

/-- test/data/test.vtt -/
def testVtt : Str := List.flatten [
  b!"WEBVTT - you can put something here\n",
  b!"Some: people\n",
  b!"Seem: to put stuff here\n",
  b!"\n",
  b!"NOTE You can have notes\n",
  b!"That span multiple lines\n",
  b!"\n",
  b!"00:00:41.090 --> 00:00:42.210\n",
  b!"This is a subtitle\n",
  b!"and that's a line break\n",
  b!"\n",
  b!"00:01:01.010 --> 00:01:02.100\n",
  b!"This is some stuff.\n"]

/-- test/data/test_text.stl -/
def testText : Str := List.flatten [
  b!"$FontName = Arial\n",
  b!"$Bold = False\n",
  b!"$Italic = False\n",
  b!"$Underlined = False\n",
  b!"$FontSize = 42\n",
  b!"// This is a comment which we should ignore\n",
  b!"// These timecodes are H:M:S:F\n",
  b!"00:00:41:09 , 00:00:42:21 , This is a subtitle | and that's a line break\n",
  b!"00:01:01:01 , 00:01:02:10 , This is some ^Bbold^B and some ^B^Ibold italic^B^I and some ^Uunderlined^U.\n"]

/-- test/data/test.ssa -/
def testSsa : Str := List.flatten [
  b!"[Script Info]\n",
  b!"Title: libsub test\n",
  b!"ScriptType: v4.00\n",
  b!"WrapStyle: 0\n",
  b!"ScaledBorderAndShadow: yes\n",
  b!"PlayResX: 1920\n",
  b!"PlayResY: 1080\n",
  b!"\n",
  b!"[V4 Styles]\n",
  b!"Format: Name, Fontname, Fontsize, PrimaryColour, SecondaryColour, TertiaryColour, BackColour, Bold, Italic, BorderStyle, Outline, Shadow, Alignment, MarginL, MarginR, MarginV, AlphaLevel, Encoding\n",
  b!"Style: Default,Arial,20,16777215,255,0,0,0,0,1,2,2,2,10,10,10,0,1\n",
  b!"\n",
  b!"[Fonts]\n",
  b!"\n",
  b!"[Graphics]\n",
  b!"\n",
  b!"[Events]\n",
  b!"Format: Marked, Start, End, Style, Name, MarginL, MarginR, MarginV, Effect, Text\n",
  b!"Dialogue: Marked=0,0:00:01.23,0:00:04.55,Default,,0,0,0,,Hello world\n",
  b!"Dialogue: Marked=0,0:00:05.74,0:00:11.00,Default,,0,0,900,,This is vertically moved\\nand has two lines.\n",
  b!"Dialogue: Marked=0,0:00:07.74,0:00:09.00,Default,,0,0,0,,Some {\\i1}italics{\\i} are here.\n",
  b!"Dialogue: Marked=0,0:00:09.23,0:00:11.56,Default,,0,0,0,,{\\an1}bottom left\n",
  b!"Dialogue: Marked=0,0:00:09.24,0:00:11.56,Default,,0,0,0,,{\\an2}bottom centre\n",
  b!"Dialogue: Marked=0,0:00:09.25,0:00:11.56,Default,,0,0,0,,{\\an3}bottom right\n",
  b!"Dialogue: Marked=0,0:00:09.26,0:00:11.56,Default,,0,0,0,,{\\an4}middle left\n",
  b!"Dialogue: Marked=0,0:00:09.27,0:00:11.56,Default,,0,0,0,,{\\an5}middle centre\n",
  b!"Dialogue: Marked=0,0:00:09.28,0:00:11.56,Default,,0,0,0,,{\\an6}middle right\n",
  b!"Dialogue: Marked=0,0:00:09.29,0:00:11.56,Default,,0,0,0,,{\\an7}top left\n",
  b!"Dialogue: Marked=0,0:00:09.30,0:00:11.56,Default,,0,0,0,,{\\an8}top centre\n",
  b!"Dialogue: Marked=0,0:00:09.31,0:00:11.56,Default,,0,0,0,,{\\an9}top right\n"]

/-- test/data/test2.ssa -/
def test2Ssa : Str := List.flatten [
  b!"[Script Info]\n",
  b!"Title: libsub test\n",
  b!"ScriptType: v4.00\n",
  b!"WrapStyle: 0\n",
  b!"ScaledBorderAndShadow: yes\n",
  b!"PlayResX: 1920\n",
  b!"PlayResY: 1080\n",
  b!"\n",
  b!"[V4 Styles]\n",
  b!"Format: Name, Fontname, Fontsize, PrimaryColour, SecondaryColour, TertiaryColour, BackColour, Bold, Italic, BorderStyle, Outline, Shadow, Alignment, MarginL, MarginR, MarginV, AlphaLevel, Encoding\n",
  b!"Style: Default,Arial,20,16777215,255,0,0,0,0,1,2,2,2,10,10,10,0,1\n",
  b!"\n",
  b!"[Fonts]\n",
  b!"\n",
  b!"[Graphics]\n",
  b!"\n",
  b!"[Events]\n",
  b!"Format: Marked, Start, End, Style, Name, MarginL, MarginR, MarginV, Effect, Text\n",
  b!"Dialogue: Marked=0,0:00:01.23,0:00:04.55,Default,,0,0,0,,Hello world this is {\\pos(400,300)}positioning.\n"]

/-- test/data/test3.ssa -/
def test3Ssa : Str := List.flatten [
  b!"﻿[Script Info]\n",
  b!"; Script generated by Aegisub 3.2.2\n",
  b!"; http://www.aegisub.org/\n",
  b!"Title: Default Aegisub file\n",
  b!"ScriptType: v4.00+\n",
  b!"WrapStyle: 0\n",
  b!"ScaledBorderAndShadow: yes\n",
  b!"PlayResX: 1920\n",
  b!"PlayResY: 1080\n",
  b!"YCbCr Matrix: TV.601\n",
  b!"\n",
  b!"[V4+ Styles]\n",
  b!"Format: Name, Fontname, Fontsize, PrimaryColour, SecondaryColour, OutlineColour, BackColour, Bold, Italic, Underline, StrikeOut, ScaleX, ScaleY, Spacing, Angle, BorderStyle, Outline, Shadow, Alignment, MarginL, MarginR, MarginV, Encoding\n",
  b!"Style: Default,Helvetica Neue,60,&H00FFFFFF,&H000000FF,&H00000000,&H00000000,0,0,0,0,100,100,0,0,1,1.5,2,2,0,0,100,1\n",
  b!"Style: Helvetica Neue 30,Helvetica Neue,30,&H00FFFFFF,&H000000FF,&H00000000,&H00000000,0,0,0,0,100,100,0,0,1,2,2,2,10,10,100,1\n",
  b!"Style: Helvetica Neue 120pt,Helvetica Neue,120,&H00FFFFFF,&H000000FF,&H00000000,&H00000000,0,0,0,0,100,100,0,0,1,1.5,2,2,10,10,100,1\n",
  b!"Style: Helvetica Neue 60 Top,Helvetica Neue,60,&H00FFFFFF,&H000000FF,&H00000000,&H00000000,0,0,0,0,100,100,0,0,1,1.5,2,8,10,10,100,1\n",
  b!"Style: Helvetica Neue 60 Center,Helvetica Neue 60 Center,60,&H00FFFFFF,&H000000FF,&H00000000,&H00000000,0,0,0,0,100,100,0,0,1,1.5,2,5,10,10,100,1\n",
  b!"\n",
  b!"[Events]\n",
  b!"Format: Layer, Start, End, Style, Name, MarginL, MarginR, MarginV, Effect, Text\n",
  b!"Dialogue: 0,0:00:01.00,0:00:03.00,Default,,0,0,0,,Helvetica Neue 60pt - Default\\NBottom 100 pt off edge\n",
  b!"Dialogue: 0,0:00:04.00,0:00:06.00,Helvetica Neue 30,,0,0,0,,Helvetica Neue 30pt\\NBottom 100pt off edge\n",
  b!"Dialogue: 0,0:00:07.00,0:00:09.00,Helvetica Neue 120pt,,0,0,0,,Helvetica Neue 120pt\\NBottom 100pt off edge\n",
  b!"Dialogue: 0,0:00:10.00,0:00:12.00,Helvetica Neue 60 Top,,0,0,0,,Helvetica Neue 60pt\\NTop Alignment 100pt off edge\n",
  b!"Dialogue: 0,0:00:13.00,0:00:15.00,Helvetica Neue 60 Center,,0,0,0,,Helvetica Neue 60pt\\N Vertical Center Alignment\n"]

/-- test/data/horizontal_margin.ssa -/
def marginSsa : Str := List.flatten [
  b!"[Script Info]\n",
  b!"Title: libsub test\n",
  b!"ScriptType: v4.00\n",
  b!"WrapStyle: 0\n",
  b!"ScaledBorderAndShadow: yes\n",
  b!"PlayResX: 1920\n",
  b!"PlayResY: 1080\n",
  b!"\n",
  b!"[V4 Styles]\n",
  b!"Format: Name, Fontname, Fontsize, PrimaryColour, SecondaryColour, TertiaryColour, BackColour, Bold, Italic, BorderStyle, Outline, Shadow, Alignment, MarginL, MarginR, MarginV, AlphaLevel, Encoding\n",
  b!"Style: Default,Arial,20,16777215,255,0,0,0,0,1,2,2,2,200,100,10,0,1\n",
  b!"\n",
  b!"[Fonts]\n",
  b!"\n",
  b!"[Graphics]\n",
  b!"\n",
  b!"[Events]\n",
  b!"Format: Marked, Start, End, Style, Name, MarginL, MarginR, MarginV, Effect, Text\n",
  b!"Dialogue: Marked=0,0:00:01.23,0:00:04.55,Default,,100,0,0,,Hello world\n",
  b!"Dialogue: Marked=0,0:01:01.23,0:01:04.55,Default,,10,0,0,,Left of centre\n",
  b!"Dialogue: Marked=0,0:02:01.23,0:02:04.55,Default,,10,0,0,,{\\an4}Left\n",
  b!"Dialogue: Marked=0,0:03:01.23,0:03:04.55,Default,,10,0,0,,{\\an6}Right\n",
  b!"Dialogue: Marked=0,0:04:01.23,0:04:04.55,Default,,0,100,0,,{\\an4}Style left\n"]

/-- test/subrip_reader_test.cc:35-164 -/
example : agree [
    { from_ := hms 0 0 41 90, to_ := hms 0 0 42 210, lines := [
      { hpos := { ref := .centre, prop := 0 }, vpos := { line := some 0, ref := some .topOfSubtitle }, blocks := [{ text := b!"This is a subtitle" }] },
      { hpos := { ref := .centre, prop := 0 }, vpos := { line := some 1, ref := some .topOfSubtitle }, blocks := [{ text := b!"and that's a line break" }] }] },
    { from_ := hms 0 1 1 10, to_ := hms 0 1 2 100, lines := [
      { hpos := { ref := .centre, prop := 0 }, vpos := { line := some 0, ref := some .topOfSubtitle }, blocks := [{ text := b!"This is some " }, { text := b!"bold", bold := true }, { text := b!" and some " }, { text := b!"bold italic", bold := true, italic := true }, { text := b!" and some " }, { text := b!"underlined", underline := true }, { text := b!"." }] }] }] (srtReadFile testSrt) = true := by decide +kernel

/-- test/subrip_reader_test.cc:167-229 -/
example : agree [
    { from_ := hms 0 1 49 200, to_ := hms 0 1 52 351, lines := [
      { hpos := { ref := .centre, prop := 0 }, vpos := { line := some 0, ref := some .topOfSubtitle }, blocks := [{ text := b!"This is a subtitle, and it goes " }] },
      { hpos := { ref := .centre, prop := 0 }, vpos := { line := some 1, ref := some .topOfSubtitle }, blocks := [{ text := b!"over two lines." }] }] },
    { from_ := hms 0 1 52 440, to_ := hms 0 1 54 351, lines := [
      { hpos := { ref := .centre, prop := 0 }, vpos := { line := some 0, ref := some .topOfSubtitle }, blocks := [{ text := b!"We have emboldened this", bold := true }] }] },
    { from_ := hms 0 1 54 440, to_ := hms 0 1 56 590, lines := [
      { hpos := { ref := .centre, prop := 0 }, vpos := { line := some 0, ref := some .topOfSubtitle }, blocks := [{ text := b!"And italicised this.", italic := true }] }] },
    { from_ := hms 0 1 56 680, to_ := hms 0 1 58 955, lines := [
      { hpos := { ref := .centre, prop := 0 }, vpos := { line := some 0, ref := some .topOfSubtitle }, blocks := [{ text := b!"Shall I compare thee to a summers' day?" }] }] },
    { from_ := hms 0 2 0 840, to_ := hms 0 2 3 400, lines := [
      { hpos := { ref := .centre, prop := 0 }, vpos := { line := some 0, ref := some .topOfSubtitle }, blocks := [{ text := b!"Is this a dagger I see before me?" }] }] },
    { from_ := hms 0 3 54 560, to_ := hms 0 3 56 471, lines := [
      { hpos := { ref := .centre, prop := 0 }, vpos := { line := some 0, ref := some .topOfSubtitle }, blocks := [{ text := b!"Hello world." }] }] },
    { from_ := hms 0 4 50 123, to_ := hms 0 4 55 23, lines := [
      { hpos := { ref := .centre, prop := 0 }, vpos := { line := some 0, ref := some .topOfSubtitle }, blocks := [{ text := b!"Some italics over", italic := true }] },
      { hpos := { ref := .centre, prop := 0 }, vpos := { line := some 1, ref := some .topOfSubtitle }, blocks := [{ text := b!"multiple lines", italic := true }] }] }] (srtReadFile test2Srt) = true := by decide +kernel

/-- test/subrip_reader_test.cc:683-705, `subrip_with_unicode_line_separator_test` -/
example : agree [
    { from_ := hms 0 1 8 234, to_ := hms 0 1 10 570, lines := [
      { hpos := { ref := .centre, prop := 0 }, vpos := { line := some 0, ref := some .topOfSubtitle }, blocks := [{ text := b!"Du fühlst dich danach besser." }] },
      { hpos := { ref := .centre, prop := 0 }, vpos := { line := some 1, ref := some .topOfSubtitle }, blocks := [{ text := b!"Okay, Kleiner?" }] }] },
    { from_ := hms 0 1 40 642, to_ := hms 0 1 42 769, lines := [
      { hpos := { ref := .centre, prop := 0 }, vpos := { line := some 0, ref := some .topOfSubtitle }, blocks := [{ text := b!"Sie kann es nicht machen" }] },
      { hpos := { ref := .centre, prop := 0 }, vpos := { line := some 1, ref := some .topOfSubtitle }, blocks := [{ text := b!"wenn du dich bewegst." }] }] }] (srtReadFile newlineSrt) = true := by decide +kernel

/-- test/subrip_reader_test.cc:709-738, `subrip_returns_to_bottom_middle` -/
example : agree [
    { from_ := hms 0 1 49 200, to_ := hms 0 1 52 351, lines := [
      { hpos := { ref := .left, prop := 0 }, vpos := { line := some 0, ref := some .bottomOfScreen }, blocks := [{ text := b!"Let's go bottom left" }] }] },
    { from_ := hms 0 1 52 440, to_ := hms 0 1 54 351, lines := [
      { hpos := { ref := .centre, prop := 0 }, vpos := { line := some 0, ref := some .topOfSubtitle }, blocks := [{ text := b!"Now back to the middle" }] }] },
    { from_ := hms 0 1 54 440, to_ := hms 0 1 56 590, lines := [
      { hpos := { ref := .right, prop := 0 }, vpos := { line := some 0, ref := some .topOfScreen }, blocks := [{ text := b!"And top right" }] }] },
    { from_ := hms 0 1 56 680, to_ := hms 0 1 58 955, lines := [
      { hpos := { ref := .centre, prop := 0 }, vpos := { line := some 0, ref := some .topOfSubtitle }, blocks := [{ text := b!"And here we are again" }] }] }] (srtReadFile test3Srt) = true := by decide +kernel

/-- test/webvtt_reader_test.cc:38-105 -/
example : agree [
    { from_ := hms 0 0 41 90, to_ := hms 0 0 42 210, lines := [
      { hpos := { ref := .centre, prop := 0 }, vpos := { line := some 0, ref := some .topOfSubtitle }, blocks := [{ text := b!"This is a subtitle" }] },
      { hpos := { ref := .centre, prop := 0 }, vpos := { line := some 1, ref := some .topOfSubtitle }, blocks := [{ text := b!"and that's a line break" }] }] },
    { from_ := hms 0 1 1 10, to_ := hms 0 1 2 100, lines := [
      { hpos := { ref := .centre, prop := 0 }, vpos := { line := some 0, ref := some .topOfSubtitle }, blocks := [{ text := b!"This is some stuff." }] }] }] (vttReadFile testVtt) = true := by decide +kernel

/-- test/stl_text_reader_test.cc:30-150 -/
example : agree [
    { from_ := hmsf 0 0 41 9, to_ := hmsf 0 0 42 21, lines := [
      { hpos := { ref := .centre, prop := 0 }, vpos := { line := some 0, ref := some .topOfSubtitle }, blocks := [{ text := b!" This is a subtitle ", font := some b!"Arial", fontSize := .fromPoints 42 }] },
      { hpos := { ref := .centre, prop := 0 }, vpos := { line := some 1, ref := some .topOfSubtitle }, blocks := [{ text := b!" and that's a line break", font := some b!"Arial", fontSize := .fromPoints 42 }] }] },
    { from_ := hmsf 0 1 1 1, to_ := hmsf 0 1 2 10, lines := [
      { hpos := { ref := .centre, prop := 0 }, vpos := { line := some 0, ref := some .topOfSubtitle }, blocks := [{ text := b!" This is some ", font := some b!"Arial", fontSize := .fromPoints 42 }, { text := b!"bold", font := some b!"Arial", fontSize := .fromPoints 42, bold := true }, { text := b!" and some ", font := some b!"Arial", fontSize := .fromPoints 42 }, { text := b!"bold italic", font := some b!"Arial", fontSize := .fromPoints 42, bold := true, italic := true }, { text := b!" and some ", font := some b!"Arial", fontSize := .fromPoints 42 }, { text := b!"underlined", font := some b!"Arial", fontSize := .fromPoints 42, underline := true }, { text := b!".", font := some b!"Arial", fontSize := .fromPoints 42 }] }] }] (stlTextRead testText) = true := by decide +kernel

/-- test/ssa_reader_test.cc:206-304, `ssa_reader_test3`, except the position of the line "This is vertically
moved", which is what the code computes and not what the test says (`ssa_test3_first_line`) -/
example : agree [
    { from_ := hms 0 0 1 230, to_ := hms 0 0 4 550, lines := [
      { hpos := { ref := .centre, prop := 0 }, vpos := { prop := some (10 / 1080), ref := some .bottomOfScreen }, blocks := [{ text := b!"Hello world", font := some b!"Arial", fontSize := .fromProportional (20 / 1080) }] }] },
    { from_ := hms 0 0 5 740, to_ := hms 0 0 11 0, lines := [
      { hpos := { ref := .centre, prop := 0 }, vpos := { prop := some (900 / 1080 + 20 * 12 / 10800), ref := some .bottomOfScreen }, blocks := [{ text := b!"This is vertically moved", font := some b!"Arial", fontSize := .fromProportional (20 / 1080) }] },
      { hpos := { ref := .centre, prop := 0 }, vpos := { prop := some (900 / 1080), ref := some .bottomOfScreen }, blocks := [{ text := b!"and has two lines.", font := some b!"Arial", fontSize := .fromProportional (20 / 1080) }] }] },
    { from_ := hms 0 0 7 740, to_ := hms 0 0 9 0, lines := [
      { hpos := { ref := .centre, prop := 0 }, vpos := { prop := some (10 / 1080), ref := some .bottomOfScreen }, blocks := [{ text := b!"Some ", font := some b!"Arial", fontSize := .fromProportional (20 / 1080) }, { text := b!"italics", font := some b!"Arial", fontSize := .fromProportional (20 / 1080), italic := true }, { text := b!" are here.", font := some b!"Arial", fontSize := .fromProportional (20 / 1080) }] }] },
    { from_ := hms 0 0 9 230, to_ := hms 0 0 11 560, lines := [
      { hpos := { ref := .left, prop := 10 / 1920 }, vpos := { prop := some (10 / 1080), ref := some .bottomOfScreen }, blocks := [{ text := b!"bottom left", font := some b!"Arial", fontSize := .fromProportional (20 / 1080) }] }] },
    { from_ := hms 0 0 9 240, to_ := hms 0 0 11 560, lines := [
      { hpos := { ref := .centre, prop := 0 }, vpos := { prop := some (10 / 1080), ref := some .bottomOfScreen }, blocks := [{ text := b!"bottom centre", font := some b!"Arial", fontSize := .fromProportional (20 / 1080) }] }] },
    { from_ := hms 0 0 9 250, to_ := hms 0 0 11 560, lines := [
      { hpos := { ref := .right, prop := 10 / 1920 }, vpos := { prop := some (10 / 1080), ref := some .bottomOfScreen }, blocks := [{ text := b!"bottom right", font := some b!"Arial", fontSize := .fromProportional (20 / 1080) }] }] },
    { from_ := hms 0 0 9 260, to_ := hms 0 0 11 560, lines := [
      { hpos := { ref := .left, prop := 10 / 1920 }, vpos := { prop := some (-(10 * 12 / 10800)), ref := some .centreOfScreen }, blocks := [{ text := b!"middle left", font := some b!"Arial", fontSize := .fromProportional (20 / 1080) }] }] },
    { from_ := hms 0 0 9 270, to_ := hms 0 0 11 560, lines := [
      { hpos := { ref := .centre, prop := 0 }, vpos := { prop := some (-(10 * 12 / 10800)), ref := some .centreOfScreen }, blocks := [{ text := b!"middle centre", font := some b!"Arial", fontSize := .fromProportional (20 / 1080) }] }] },
    { from_ := hms 0 0 9 280, to_ := hms 0 0 11 560, lines := [
      { hpos := { ref := .right, prop := 10 / 1920 }, vpos := { prop := some (-(10 * 12 / 10800)), ref := some .centreOfScreen }, blocks := [{ text := b!"middle right", font := some b!"Arial", fontSize := .fromProportional (20 / 1080) }] }] },
    { from_ := hms 0 0 9 290, to_ := hms 0 0 11 560, lines := [
      { hpos := { ref := .left, prop := 10 / 1920 }, vpos := { prop := some (10 / 1080), ref := some .topOfScreen }, blocks := [{ text := b!"top left", font := some b!"Arial", fontSize := .fromProportional (20 / 1080) }] }] },
    { from_ := hms 0 0 9 300, to_ := hms 0 0 11 560, lines := [
      { hpos := { ref := .centre, prop := 0 }, vpos := { prop := some (10 / 1080), ref := some .topOfScreen }, blocks := [{ text := b!"top centre", font := some b!"Arial", fontSize := .fromProportional (20 / 1080) }] }] },
    { from_ := hms 0 0 9 310, to_ := hms 0 0 11 560, lines := [
      { hpos := { ref := .right, prop := 10 / 1920 }, vpos := { prop := some (10 / 1080), ref := some .topOfScreen }, blocks := [{ text := b!"top right", font := some b!"Arial", fontSize := .fromProportional (20 / 1080) }] }] }] (ssaReadFile testSsa) = true := by decide +kernel

/-- test/ssa_reader_test.cc:231 asserts that the first of the two lines is at `900 / 1080 - vp (20)` from the
bottom of the screen, that is *below* the second.  The code (src/ssa_reader.cc:386-420) puts it at
`900 / 1080 + vp (20)`, as the comment above the assertion and the tests of the same arrangement in
`ssa_reader_test7` say.  The model follows the code. -/
example : ((ssaReadFile testSsa).toOption.bind (fun raws => raws[1]?)).map (fun r =>
    (r.text, near (r.vpos.prop.getD 0) (900 / 1080 + 20 * 12 / 10800), near (r.vpos.prop.getD 0) (900 / 1080 - 20 * 12 / 10800))) =
    some (b!"This is vertically moved", true, false) := by decide +kernel

/-- test/ssa_reader_test.cc:508-565, `ssa_reader_test7` -/
example : agree [
    { from_ := hms 0 0 1 0, to_ := hms 0 0 3 0, lines := [
      { hpos := { ref := .centre, prop := 0 }, vpos := { prop := some (60 * 12 / 10800 + 100 / 1080), ref := some .bottomOfScreen }, blocks := [{ text := b!"Helvetica Neue 60pt - Default", font := some b!"Helvetica Neue", fontSize := .fromProportional (60 / 1080) }] },
      { hpos := { ref := .centre, prop := 0 }, vpos := { prop := some (100 / 1080), ref := some .bottomOfScreen }, blocks := [{ text := b!"Bottom 100 pt off edge", font := some b!"Helvetica Neue", fontSize := .fromProportional (60 / 1080) }] }] },
    { from_ := hms 0 0 4 0, to_ := hms 0 0 6 0, lines := [
      { hpos := { ref := .centre, prop := 0 }, vpos := { prop := some (30 * 12 / 10800 + 100 / 1080), ref := some .bottomOfScreen }, blocks := [{ text := b!"Helvetica Neue 30pt", font := some b!"Helvetica Neue", fontSize := .fromProportional (30 / 1080) }] },
      { hpos := { ref := .centre, prop := 0 }, vpos := { prop := some (100 / 1080), ref := some .bottomOfScreen }, blocks := [{ text := b!"Bottom 100pt off edge", font := some b!"Helvetica Neue", fontSize := .fromProportional (30 / 1080) }] }] },
    { from_ := hms 0 0 7 0, to_ := hms 0 0 9 0, lines := [
      { hpos := { ref := .centre, prop := 0 }, vpos := { prop := some (120 * 12 / 10800 + 100 / 1080), ref := some .bottomOfScreen }, blocks := [{ text := b!"Helvetica Neue 120pt", font := some b!"Helvetica Neue", fontSize := .fromProportional (120 / 1080) }] },
      { hpos := { ref := .centre, prop := 0 }, vpos := { prop := some (100 / 1080), ref := some .bottomOfScreen }, blocks := [{ text := b!"Bottom 100pt off edge", font := some b!"Helvetica Neue", fontSize := .fromProportional (120 / 1080) }] }] },
    { from_ := hms 0 0 10 0, to_ := hms 0 0 12 0, lines := [
      { hpos := { ref := .centre, prop := 0 }, vpos := { prop := some (100 / 1080), ref := some .topOfScreen }, blocks := [{ text := b!"Helvetica Neue 60pt", font := some b!"Helvetica Neue", fontSize := .fromProportional (60 / 1080) }] },
      { hpos := { ref := .centre, prop := 0 }, vpos := { prop := some (60 * 12 / 10800 + 100 / 1080), ref := some .topOfScreen }, blocks := [{ text := b!"Top Alignment 100pt off edge", font := some b!"Helvetica Neue", fontSize := .fromProportional (60 / 1080) }] }] },
    { from_ := hms 0 0 13 0, to_ := hms 0 0 15 0, lines := [
      { hpos := { ref := .centre, prop := 0 }, vpos := { prop := some (-(60 * 12 / 10800)), ref := some .centreOfScreen }, blocks := [{ text := b!"Helvetica Neue 60pt", font := some b!"Helvetica Neue 60 Center", fontSize := .fromProportional (60 / 1080) }] },
      { hpos := { ref := .centre, prop := 0 }, vpos := { prop := some (0), ref := some .centreOfScreen }, blocks := [{ text := b!" Vertical Center Alignment", font := some b!"Helvetica Neue 60 Center", fontSize := .fromProportional (60 / 1080) }] }] }] (ssaReadFile test3Ssa) = true := by decide +kernel

/-- test/ssa_reader_test.cc:569-589, `ssa_reader_pos` -/
example : agree [
    { from_ := hms 0 0 1 230, to_ := hms 0 0 4 550, lines := [
      { hpos := { ref := .centre, prop := 0 }, vpos := { prop := some (10 / 1080), ref := some .bottomOfScreen }, blocks := [{ text := b!"Hello world this is ", font := some b!"Arial", fontSize := .fromProportional (20 / 1080) }] },
      { hpos := { ref := .left, prop := 400 / 1920 }, vpos := { prop := some (310 / 1080), ref := some .topOfScreen }, blocks := [{ text := b!"positioning.", font := some b!"Arial", fontSize := .fromProportional (20 / 1080) }] }] }] (ssaReadFile test2Ssa) = true := by decide +kernel

/-- test/ssa_reader_test.cc:646-672, `ssa_reader_horizontal_margin` -/
example : agree [
    { from_ := hms 0 0 1 230, to_ := hms 0 0 4 550, lines := [
      { hpos := { ref := .centre, prop := 0 }, vpos := { prop := some (10 / 1080), ref := some .bottomOfScreen }, blocks := [{ text := b!"Hello world", font := some b!"Arial", fontSize := .fromProportional (20 / 1080) }] }] },
    { from_ := hms 0 1 1 230, to_ := hms 0 1 4 550, lines := [
      { hpos := { ref := .centre, prop := -90 / (2 * 1920) }, vpos := { prop := some (10 / 1080), ref := some .bottomOfScreen }, blocks := [{ text := b!"Left of centre", font := some b!"Arial", fontSize := .fromProportional (20 / 1080) }] }] },
    { from_ := hms 0 2 1 230, to_ := hms 0 2 4 550, lines := [
      { hpos := { ref := .left, prop := 10 / 1920 }, vpos := { prop := some (-(10 * 12 / 10800)), ref := some .centreOfScreen }, blocks := [{ text := b!"Left", font := some b!"Arial", fontSize := .fromProportional (20 / 1080) }] }] },
    { from_ := hms 0 3 1 230, to_ := hms 0 3 4 550, lines := [
      { hpos := { ref := .right, prop := 100 / 1920 }, vpos := { prop := some (-(10 * 12 / 10800)), ref := some .centreOfScreen }, blocks := [{ text := b!"Right", font := some b!"Arial", fontSize := .fromProportional (20 / 1080) }] }] },
    { from_ := hms 0 4 1 230, to_ := hms 0 4 4 550, lines := [
      { hpos := { ref := .left, prop := 200 / 1920 }, vpos := { prop := some (-(10 * 12 / 10800)), ref := some .centreOfScreen }, blocks := [{ text := b!"Style left", font := some b!"Arial", fontSize := .fromProportional (20 / 1080) }] }] }] (ssaReadFile marginSsa) = true := by decide +kernel


/-- Text, style and colour of the pieces `SSAReader::parse_line` makes. -/
def ssaPieces (c : Colour) (line : Str) : Option (List (Str × Bool)) :=
  match ssaParseLine { resX := 1920, resY := 1080, primaryColour := c } {} line with
  | .error _ => none
  | .ok l => some (l.map (fun r => (r.text, r.italic)))

/-- test/ssa_reader_test.cc:94-124 -/
example : ssaPieces ⟨1, 1, 1⟩ b!"This is a line with some {\\i1}italics{\\i0} and then\\nthere is a new line." =
    some [(b!"This is a line with some ", false), (b!"italics", true), (b!" and then", false),
      (b!"there is a new line.", false)] := by decide +kernel

/-- test/ssa_reader_test.cc:127-167 -/
example : ssaPieces ⟨1, 1, 1⟩ b!"{\\i1}It's all just italics{\\i0}" = some [(b!"It's all just italics", true)] := by
  decide +kernel
example : ((ssaParseLine { resX := 1920, resY := 1080, primaryColour := ⟨1, 1, 1⟩ } {} b!"{\\i1}Italic{\\i0}\\Nand new line").toOption.map
    (List.map (fun r => (r.text, r.italic)))) = some [(b!"Italic", true), (b!"and new line", false)] := by decide +kernel
example : ((ssaParseLine { resX := 1920, resY := 1080, primaryColour := ⟨1, 1, 1⟩ } {} b!"{\\i1}Italic{\\i0}\\Nand new line").toOption.map
    (List.map (fun r => nearOpt r.vpos.prop (some (72 * 12 / 10800)) || nearOpt r.vpos.prop (some 0)))) = some [true, true] := by
  decide +kernel

/-- test/ssa_reader_test.cc:593-613, `\fs` -/
example : ((ssaParseLine { resX := 1920, resY := 1080, primaryColour := ⟨1, 1, 1⟩ } {} b!"This is a line with some {\\fs64}font sizing.").toOption.map
    (List.map (fun r => (r.text, nearOpt r.fontSize.prop (some (64 / 1080)))))) =
    some [(b!"This is a line with some ", false), (b!"font sizing.", true)] := by decide +kernel

/-- test/ssa_reader_test.cc:616-643, `\c` -/
def testC (command colour : Str) : Bool :=
  match ssaParseLine { resX := 1920, resY := 1080, primaryColour := ⟨1, 0, 1⟩ } {} (b!"{\\c" ++ command ++ b!"}Hello world"),
      Colour.fromRgbHex colour with
  | .ok [r], .ok c => r.text == b!"Hello world" && r.colour.eq c
  | _, _ => false

example : testC b!"&H00FFFF&" b!"ffff00" = true := by decide +kernel
example : testC b!"&H123456&" b!"563412" = true := by decide +kernel
example : testC b!"&H0&" b!"000000" = true := by decide +kernel
example : testC b!"&HFF&" b!"ff0000" = true := by decide +kernel
example : testC b!"&HFF00&" b!"00ff00" = true := by decide +kernel
example : testC b!"&HFF0000&" b!"0000ff" = true := by decide +kernel
example : testC b!"&HFFFFFF&" b!"ffffff" = true := by decide +kernel
example : testC b!"" b!"ff00ff" = true := by decide +kernel

/-- The pieces `SubripReader::convert_line` makes of one line: text, bold, italic, underline. -/
def srtPieces (t : Str) : Option (List (Str × Bool × Bool × Bool)) :=
  match convertLine 0 [] t {} [] with
  | .error _ => none
  | .ok (_, l) => some (l.map (fun r => (r.text, r.bold, r.italic, r.underline)))

/-- test/subrip_reader_test.cc:236-318 and 420-426 -/
example : srtPieces b!"Hello world" = some [(b!"Hello world", false, false, false)] := by decide +kernel
example : srtPieces b!"<b>Hello world</b>" = some [(b!"Hello world", true, false, false)] := by decide +kernel
example : srtPieces b!"<i>Hello world</i>" = some [(b!"Hello world", false, true, false)] := by decide +kernel
example : srtPieces b!"<u>Hello world</u>" = some [(b!"Hello world", false, false, true)] := by decide +kernel
example : srtPieces b!"{b}Hello world{/b}" = some [(b!"Hello world", true, false, false)] := by decide +kernel
example : srtPieces b!"{i}Hello world{/i}" = some [(b!"Hello world", false, true, false)] := by decide +kernel
example : srtPieces b!"{u}Hello world{/u}" = some [(b!"Hello world", false, false, true)] := by decide +kernel
example : srtPieces b!"<b>This is <i>nesting</i> of subtitles</b>" =
    some [(b!"This is ", true, false, false), (b!"nesting", true, true, false), (b!" of subtitles", true, false, false)] := by
  decide +kernel
example : srtPieces b!"<B>This is <I>nesting</I> of subtitles</B>" =
    some [(b!"This is ", true, false, false), (b!"nesting", true, true, false), (b!" of subtitles", true, false, false)] := by
  decide +kernel
example : srtPieces b!"<< angle brackets but no HTML >>" = some [(b!"<< angle brackets but no HTML >>", false, false, false)] := by
  decide +kernel

/-- The pieces with their colours, each component in 1/255ths. -/
def srtColours (t : Str) : Option (List (Str × Bool × Int × Int × Int)) :=
  match convertLine 0 [] t {} [] with
  | .error _ => none
  | .ok (_, l) => some (l.map (fun r => (r.text, r.bold, rint (r.colour.r * 255), rint (r.colour.g * 255), rint (r.colour.b * 255))))

/-- test/subrip_reader_test.cc:320-418 and 608-626 -/
example : srtColours b!"<font color=\"#ff00ff\">simple color</font>" = some [(b!"simple color", false, 255, 0, 255)] := by
  decide +kernel
example : srtColours b!"<font color='#ff00ff'>simple color</font>" = some [(b!"simple color", false, 255, 0, 255)] := by
  decide +kernel
example : srtColours b!"<font color=\"#FF00FF\">simple color in capitals</font>" =
    some [(b!"simple color in capitals", false, 255, 0, 255)] := by decide +kernel
example : srtColours b!"<font color=\"#ff0000\">some red text <b>in bold</b></font>" =
    some [(b!"some red text ", false, 255, 0, 0), (b!"in bold", true, 255, 0, 0)] := by decide +kernel
example : srtColours b!"<Font color=\"#ff0000\">some red text <b>in bold</b></font>" =
    some [(b!"some red text ", false, 255, 0, 0), (b!"in bold", true, 255, 0, 0)] := by decide +kernel
example : srtColours b!"<font color=\"#0000ff\">some blue text <b>in bold</b></font>" =
    some [(b!"some blue text ", false, 0, 0, 255), (b!"in bold", true, 0, 0, 255)] := by decide +kernel
example : srtColours b!"<font color=\"#0000ffdd\">some blue text with alpha</font>" =
    some [(b!"some blue text with alpha", false, 0, 0, 255)] := by decide +kernel
example : srtColours b!"<font color=\"rgba(255,128,64,15)\">Foo bar</font>" = some [(b!"Foo bar", false, 255, 128, 64)] := by
  decide +kernel
example : srtColours b!"<font color=\"rgba(1, 2 , 3, 4)\">Foo bar</font>" = some [(b!"Foo bar", false, 1, 2, 3)] := by
  decide +kernel

/-- test/subrip_reader_test.cc:630-680, alignment -/
def srtAligned (t : Str) : Option (List (Str × VPos × HPos)) :=
  match convertLine 0 [] t { vpos := { line := some 0 } } [] with
  | .error _ => none
  | .ok (_, l) => some (l.map (fun r => (r.text, r.vpos, r.hpos)))
example : srtAligned b!"{\\an1}Hello" = some [(b!"Hello", { line := some 0, ref := some .bottomOfScreen }, { ref := .left, prop := 0 })] := by decide +kernel
example : srtAligned b!"{\\an2}to" = some [(b!"to", { line := some 0, ref := some .bottomOfScreen }, { ref := .centre, prop := 0 })] := by decide +kernel
example : srtAligned b!"{\\an3}you" = some [(b!"you", { line := some 0, ref := some .bottomOfScreen }, { ref := .right, prop := 0 })] := by decide +kernel

/-- test/subrip_reader_test.cc:429-439 -/
example : ((convertTime b!"00:03:10,500" b!",").toOption.bind Except.toOption) = some (hms 0 3 10 500) := by decide +kernel
example : ((convertTime b!"04:19:51,782" b!",").toOption.bind Except.toOption) = some (hms 4 19 51 782) := by decide +kernel

/-- The parts of a time: hours, minutes, seconds, milliseconds. -/
def parts (r : R Time) : Option (Int × Int × Int × Int) :=
  match r with
  | .error _ => none
  | .ok t => match t.milliseconds with
    | .error _ => none
    | .ok ms => some (t.hours, t.minutes, t.seconds, ms)

/-- test/time_test.cc:26-43 -/
example : parts (Time.fromHms 3 5 7 40) = some (3, 5, 7, 40) := by decide +kernel
example : parts (Time.fromHms 591353 1 2 3) = some (591353, 1, 2, 3) := by decide +kernel

/-- test/time_test.cc:46-61 -/
example : (do (← Time.fromHms 3 5 7 40).framesAt ⟨25, 1⟩ : R _).toOption = some 1 := by decide +kernel
example : (do (← Time.fromHmsf 3 5 7 1 (some ⟨25, 1⟩)).milliseconds : R _).toOption = some 40 := by decide +kernel
example : (do (← Time.fromHms 3 5 7 120).framesAt ⟨25, 1⟩ : R _).toOption = some 3 := by decide +kernel
example : (do (← Time.fromHmsf 3 5 7 3 (some ⟨25, 1⟩)).milliseconds : R _).toOption = some 120 := by decide +kernel

/-- test/time_test.cc:64-68 -/
example : (do (← Time.fromHms 0 0 5 (198 * 4)).eq (← Time.fromHms 0 0 5 (198 * 4)) : R _).toOption = some true := by decide +kernel
example : (do (← Time.fromHms 0 0 55 332).ne (← Time.fromHms 0 0 58 332) : R _).toOption = some true := by decide +kernel

/-- test/time_test.cc:71-75 -/
example : (match (do (← Time.fromHmsf 2 1 58 4 none).allAsSeconds : R Rat) with
    | .error .unknownFrameRate => true
    | _ => false) = true := by decide +kernel
example : (match (do (← Time.fromHmsf 2 1 58 4 (some ⟨24, 1⟩)).allAsSeconds : R Rat) with
    | .ok x => near (x / 1000) (73181667 / 10000000)
    | .error _ => false) = true := by decide +kernel

/-- test/time_test.cc:78-83 -/
example : (do (← (← Time.fromHmsf 0 4 8 208 (some ⟨1000, 1⟩)).add (← Time.fromFrames 54641 ⟨24, 1⟩)).eq (← Time.fromHmsf 0 42 4 916 (some ⟨1000, 1⟩)) : R Bool).toOption = some true := by decide +kernel

/-- test/time_test.cc:85-99; the argument of `scale` is a `float` -/
example : (do (← Time.fromHmsf 0 0 1 0 (some ⟨1000, 1⟩)).scale (f32 (96 / 100)) : R Time).toOption.map
    (fun t => (t.seconds, (t.framesAt ⟨1000, 1⟩).toOption)) = some (0, some 960) := by decide +kernel
example : (do (← Time.fromHmsf 0 0 2 0 (some ⟨1000, 1⟩)).scale (f32 (96 / 100)) : R Time).toOption.map
    (fun t => (t.seconds, (t.framesAt ⟨1000, 1⟩).toOption)) = some (1, some 920) := by decide +kernel

/-- test/vertical_position_test.cc -/
def vprop (x : Rat) (r : VRef) : VPos := { prop := some (f32 x), ref := some r }
def vline (l n : Int) : VPos := { line := some l, lines := some n, ref := some .topOfScreen }
example : ((vprop (3 / 10) .topOfScreen).lt (vprop (4 / 10) .topOfScreen)).toOption = some true := by decide +kernel
example : ((vprop (1 / 10) .topOfScreen).lt (vprop (5 / 10) .topOfScreen)).toOption = some true := by decide +kernel
example : ((vline 4 25).lt (vline 6 25)).toOption = some true := by decide +kernel
example : ((vline 2 25).lt (vline 17 25)).toOption = some true := by decide +kernel
example : ((vprop (7 / 10) .topOfScreen).lt (vprop (3 / 10) .centreOfScreen)).toOption = some true := by decide +kernel
example : ((vprop (1 / 10) .topOfScreen).lt (vprop (9 / 10) .bottomOfScreen)).toOption = some true := by decide +kernel
example : ((vline 12 99).lt (vline 12 25)).toOption = some true := by decide +kernel

/-- test/iso6937_test.cc: the decoded text in UTF-8. -/
def fromIso (s : Str) : Option Str := (isoDecode s).toOption.map utf8Encode
def toIso (s : Str) : Option Str := (isoEncode (utf8Decode s)).toOption
example : fromIso b!"Hello world" = some b!"Hello world" := by decide +kernel
example : fromIso (b!"Testing " ++ [0xa9] ++ b!"testing" ++ [0xb9]) = some b!"Testing ‘testing’" := by decide +kernel
example : fromIso (b!"All must have " ++ [0xcb] ++ b!"cedillas") = some b!"All must have çedillas" := by decide +kernel
example : fromIso (b!"M" ++ [0xc8] ++ b!"otorhead") = some b!"Mötorhead" := by decide +kernel
example : fromIso b!"Pass\nnewlines\nthrough" = some b!"Pass\nnewlines\nthrough" := by decide +kernel
example : toIso b!"Hello world" = some b!"Hello world" := by decide +kernel
example : toIso b!"Testing ‘testing’" = some (b!"Testing " ++ [0xa9] ++ b!"testing" ++ [0xb9]) := by decide +kernel
example : toIso b!"All must have çedillas" = some (b!"All must have " ++ [0xcb] ++ b!"cedillas") := by decide +kernel
example : toIso b!"Mötorhead" = some (b!"M" ++ [0xc8] ++ b!"otorhead") := by decide +kernel
example : toIso b!"Pass\nnewlines\nthrough" = some b!"Pass\nnewlines\nthrough" := by decide +kernel
example : toIso b!"Ignore prime′s and just use quote's" = some b!"Ignore prime's and just use quote's" := by decide +kernel

/-- test/ref/test3.stl, the binary STL file the project expects for the subtitle of test/data/test3.xml (its
reader is not part of this version of the code, so the `Subtitle` is written down here). -/
def refTest3 : Str := List.flatten [
  b!"850STL24.0100008                                                                          ",
  b!"                                                                                          ",
  b!"                            00000000000000003005143005140000001000010011923100000000000000",
  b!"0011GBR                                                                                   ",
  b!"             ",
  List.replicate 651 0,
  [1, 0, 0, 255, 0, 0, 0, 41, 6, 0, 0, 43, 5, 20, 2, 0],
  [45, 45, 45, 208, 208, 208, 164],
  List.replicate 105 143]

def refSubtitle : Subtitle where
  from_ := hms 0 0 41 (62 * 4)
  to_ := hms 0 0 43 (52 * 4)
  lines := [{ vpos := { prop := some (f32 (89 / 100)), ref := some .topOfScreen }, blocks := [{ text := b!"‐‑‒–—―$" }] }]

def refArgs : StlArgs where
  subtitles := [refSubtitle]
  fps := 24
  language := .german
  originalProgrammeTitle := []
  originalEpisodeTitle := []
  translatedProgrammeTitle := []
  translatedEpisodeTitle := []
  translatorName := []
  translatorContactDetails := []
  creationDate := b!"300514"
  revisionDate := b!"300514"
  revisionNumber := 0
  countryOfOrigin := b!"GBR"
  publisher := []
  editorName := []
  editorContactDetails := []

/-- The model writes the reference file, byte for byte. -/
example : (writeStl refArgs).toOption = some refTest3 := by decide +kernel

/-- test/stl_binary_writer_test.cc: the subtitles the test writes. -/
def writerSub1 : Subtitle where
  from_ := ⟨41, 9, some ⟨25, 1⟩⟩
  to_ := ⟨42, 21, some ⟨25, 1⟩⟩
  lines := [
    { vpos := { line := some 0, lines := some 32, ref := some .topOfScreen },
      blocks := [{ text := b!"This is a subtitle", font := some b!"Arial", fontSize := .fromPoints 42 }] },
    { vpos := { line := some 1, lines := some 32, ref := some .topOfScreen },
      blocks := [{ text := b!"and that's a line break", font := some b!"Arial", fontSize := .fromPoints 42 }] }]

def writerSub2 : Subtitle where
  from_ := ⟨61, 1, some ⟨25, 1⟩⟩
  to_ := ⟨62, 10, some ⟨25, 1⟩⟩
  lines := [
    { vpos := { line := some 0, lines := some 32, ref := some .topOfScreen },
      blocks := [
        { text := b!"This is some ", font := some b!"Arial", fontSize := .fromPoints 42 },
        { text := b!"underline", font := some b!"Arial", fontSize := .fromPoints 42, underline := true },
        { text := b!" and some ", font := some b!"Arial", fontSize := .fromPoints 42 },
        { text := b!"underlined italic", font := some b!"Arial", fontSize := .fromPoints 42, underline := true, italic := true }] }]

def writerArgs : StlArgs where
  subtitles := [writerSub1, writerSub2]
  fps := 25
  language := .german
  originalProgrammeTitle := b!"Original programme title"
  originalEpisodeTitle := b!"Original episode title"
  translatedProgrammeTitle := b!"TX program title"
  translatedEpisodeTitle := b!"TX episode title"
  translatorName := b!"TX name"
  translatorContactDetails := b!"TX contact"
  creationDate := b!"140212"
  revisionDate := b!"140213"
  revisionNumber := 0
  countryOfOrigin := b!"GBR"
  publisher := b!"Publisher"
  editorName := b!"Editor name"
  editorContactDetails := b!"Editor contact"

/-- The test only writes the file; here it is also read back: text, underline, italic of each piece.  Rows 0
and 1 of 32 are both row 0 of the 23 the writer uses, so the two lines of the first subtitle run together
(C60), and every change of style ends a piece, even an empty one. -/
example : ((writeStl writerArgs >>= stlRead).toOption.map (fun x => x.2.map (fun r => (r.text, r.underline, r.italic)))) =
    some [(b!"This is a subtitleand that's a line break", false, false),
      (b!"This is some ", false, false), (b!"underline", true, false), (b!" and some ", false, false),
      ([], true, false), (b!"underlined italic", true, true), ([], false, true)] := by decide +kernel

end LibSub.Conformance
