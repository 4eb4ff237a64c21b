/-
src/iso6937_tables.cc and src/iso6937_tables.h, as they are.
-/
import Verif.Model.Base

namespace LibSub

/-- Lines 1 to 60 of src/iso6937_tables.cc. -/
def isoTablesCc1 : List Str := [
  b!"/*",
  b!"    Copyright (C) 2014 Carl Hetherington <cth@carlh.net>",
  b!"",
  b!"    This program is free software; you can redistribute it and/or modify",
  b!"    it under the terms of the GNU General Public License as published by",
  b!"    the Free Software Foundation; either version 2 of the License, or",
  b!"    (at your option) any later version.",
  b!"",
  b!"    This program is distributed in the hope that it will be useful,",
  b!"    but WITHOUT ANY WARRANTY; without even the implied warranty of",
  b!"    MERCHANTABILITY or FITNESS FOR A PARTICULAR PURPOSE.  See the",
  b!"    GNU General Public License for more details.",
  b!"",
  b!"    You should have received a copy of the GNU General Public License",
  b!"    along with this program; if not, write to the Free Software",
  b!"    Foundation, Inc., 675 Mass Ave, Cambridge, MA 02139, USA.",
  b!"",
  b!"*/",
  b!"",
  b!"/* THIS FILE WAS AUTO-GENERATED BY iso6937.py */",
  b!"",
  b!"#include <map>",
  b!"#include \"iso6937_tables.h\"",
  b!"",
  b!"using std::map;",
  b!"",
  b!"map<char, wchar_t> sub::iso6937::grave;",
  b!"map<char, wchar_t> sub::iso6937::acute;",
  b!"map<char, wchar_t> sub::iso6937::circumflex;",
  b!"map<char, wchar_t> sub::iso6937::tilde;",
  b!"map<char, wchar_t> sub::iso6937::macron;",
  b!"map<char, wchar_t> sub::iso6937::breve;",
  b!"map<char, wchar_t> sub::iso6937::dot;",
  b!"map<char, wchar_t> sub::iso6937::diaeresis;",
  b!"map<char, wchar_t> sub::iso6937::ring;",
  b!"map<char, wchar_t> sub::iso6937::cedilla;",
  b!"map<char, wchar_t> sub::iso6937::double_acute;",
  b!"map<char, wchar_t> sub::iso6937::ogonek;",
  b!"map<char, wchar_t> sub::iso6937::caron;",
  b!"map<char, wchar_t> sub::iso6937::main;",
  b!"map<char, map<char, wchar_t> *> sub::iso6937::diacriticals;",
  b!"",
  b!"void",
  b!"sub::make_iso6937_tables ()",
  b!"{",
  b!"\tusing namespace sub::iso6937;",
  b!"",
  b!"\tgrave['A'] = 0x00C0;",
  b!"\tgrave['E'] = 0x00C8;",
  b!"\tgrave['I'] = 0x00CC;",
  b!"\tgrave['O'] = 0x00D2;",
  b!"\tgrave['U'] = 0x00D9;",
  b!"\tgrave['a'] = 0x00E0;",
  b!"\tgrave['e'] = 0x00E8;",
  b!"\tgrave['i'] = 0x00EC;",
  b!"\tgrave['o'] = 0x00F2;",
  b!"\tgrave['u'] = 0x00F9;",
  b!"",
  b!"\tacute['A'] = 0x00C1;",
  b!"\tacute['C'] = 0x0106;"]

/-- Lines 61 to 120 of src/iso6937_tables.cc. -/
def isoTablesCc2 : List Str := [
  b!"\tacute['E'] = 0x00C9;",
  b!"\tacute['I'] = 0x00CD;",
  b!"\tacute['L'] = 0x0139;",
  b!"\tacute['N'] = 0x0143;",
  b!"\tacute['O'] = 0x00D3;",
  b!"\tacute['R'] = 0x0154;",
  b!"\tacute['S'] = 0x015A;",
  b!"\tacute['U'] = 0x00DA;",
  b!"\tacute['Y'] = 0x00DD;",
  b!"\tacute['Z'] = 0x0179;",
  b!"\tacute['a'] = 0x00E1;",
  b!"\tacute['c'] = 0x0107;",
  b!"\tacute['e'] = 0x00E9;",
  b!"\tacute['g'] = 0x01F5;",
  b!"\tacute['i'] = 0x00ED;",
  b!"\tacute['l'] = 0x013A;",
  b!"\tacute['n'] = 0x0144;",
  b!"\tacute['o'] = 0x00F3;",
  b!"\tacute['r'] = 0x0155;",
  b!"\tacute['s'] = 0x015B;",
  b!"\tacute['u'] = 0x00FA;",
  b!"\tacute['y'] = 0x00FD;",
  b!"\tacute['z'] = 0x017A;",
  b!"",
  b!"\tcircumflex['A'] = 0x00C2;",
  b!"\tcircumflex['C'] = 0x0108;",
  b!"\tcircumflex['E'] = 0x00CA;",
  b!"\tcircumflex['G'] = 0x011C;",
  b!"\tcircumflex['H'] = 0x0124;",
  b!"\tcircumflex['I'] = 0x00CE;",
  b!"\tcircumflex['J'] = 0x0134;",
  b!"\tcircumflex['O'] = 0x00D4;",
  b!"\tcircumflex['S'] = 0x015C;",
  b!"\tcircumflex['U'] = 0x00DB;",
  b!"\tcircumflex['W'] = 0x0174;",
  b!"\tcircumflex['Y'] = 0x0176;",
  b!"\tcircumflex['a'] = 0x00E2;",
  b!"\tcircumflex['c'] = 0x0109;",
  b!"\tcircumflex['e'] = 0x00EA;",
  b!"\tcircumflex['g'] = 0x011D;",
  b!"\tcircumflex['h'] = 0x0125;",
  b!"\tcircumflex['i'] = 0x00EE;",
  b!"\tcircumflex['j'] = 0x0135;",
  b!"\tcircumflex['o'] = 0x00F4;",
  b!"\tcircumflex['s'] = 0x015D;",
  b!"\tcircumflex['u'] = 0x00FB;",
  b!"\tcircumflex['w'] = 0x0175;",
  b!"\tcircumflex['y'] = 0x0177;",
  b!"",
  b!"\ttilde['A'] = 0x00C3;",
  b!"\ttilde['I'] = 0x0128;",
  b!"\ttilde['N'] = 0x00D1;",
  b!"\ttilde['O'] = 0x00D5;",
  b!"\ttilde['U'] = 0x0168;",
  b!"\ttilde['a'] = 0x00E3;",
  b!"\ttilde['i'] = 0x0129;",
  b!"\ttilde['n'] = 0x00F1;",
  b!"\ttilde['o'] = 0x00F5;",
  b!"\ttilde['u'] = 0x0169;",
  b!""]

/-- Lines 121 to 180 of src/iso6937_tables.cc. -/
def isoTablesCc3 : List Str := [
  b!"\tmacron['A'] = 0x0100;",
  b!"\tmacron['E'] = 0x0112;",
  b!"\tmacron['I'] = 0x012A;",
  b!"\tmacron['O'] = 0x014C;",
  b!"\tmacron['U'] = 0x016A;",
  b!"\tmacron['a'] = 0x0101;",
  b!"\tmacron['e'] = 0x0113;",
  b!"\tmacron['i'] = 0x012B;",
  b!"\tmacron['o'] = 0x014D;",
  b!"\tmacron['u'] = 0x016B;",
  b!"",
  b!"\tbreve['A'] = 0x0102;",
  b!"\tbreve['G'] = 0x011E;",
  b!"\tbreve['U'] = 0x016C;",
  b!"\tbreve['a'] = 0x0103;",
  b!"\tbreve['g'] = 0x011F;",
  b!"\tbreve['u'] = 0x016D;",
  b!"",
  b!"\tdot['C'] = 0x010A;",
  b!"\tdot['E'] = 0x0116;",
  b!"\tdot['G'] = 0x0120;",
  b!"\tdot['I'] = 0x0130;",
  b!"\tdot['Z'] = 0x017B;",
  b!"\tdot['c'] = 0x010B;",
  b!"\tdot['e'] = 0x0117;",
  b!"\tdot['g'] = 0x0121;",
  b!"\tdot['z'] = 0x017C;",
  b!"",
  b!"\tdiaeresis['A'] = 0x00C4;",
  b!"\tdiaeresis['E'] = 0x00CB;",
  b!"\tdiaeresis['I'] = 0x00CF;",
  b!"\tdiaeresis['O'] = 0x00D6;",
  b!"\tdiaeresis['U'] = 0x00DC;",
  b!"\tdiaeresis['Y'] = 0x0178;",
  b!"\tdiaeresis['a'] = 0x00E4;",
  b!"\tdiaeresis['e'] = 0x00EB;",
  b!"\tdiaeresis['i'] = 0x00EF;",
  b!"\tdiaeresis['o'] = 0x00F6;",
  b!"\tdiaeresis['u'] = 0x00FC;",
  b!"\tdiaeresis['y'] = 0x00FF;",
  b!"",
  b!"\tring['A'] = 0x00C5;",
  b!"\tring['U'] = 0x016E;",
  b!"\tring['a'] = 0x00E5;",
  b!"\tring['u'] = 0x016F;",
  b!"",
  b!"\tcedilla['C'] = 0x00C7;",
  b!"\tcedilla['G'] = 0x0122;",
  b!"\tcedilla['K'] = 0x0136;",
  b!"\tcedilla['L'] = 0x013B;",
  b!"\tcedilla['N'] = 0x0145;",
  b!"\tcedilla['R'] = 0x0156;",
  b!"\tcedilla['S'] = 0x015E;",
  b!"\tcedilla['T'] = 0x0162;",
  b!"\tcedilla['c'] = 0x00E7;",
  b!"\tcedilla['k'] = 0x0137;",
  b!"\tcedilla['l'] = 0x013C;",
  b!"\tcedilla['n'] = 0x0146;",
  b!"\tcedilla['r'] = 0x0157;",
  b!"\tcedilla['s'] = 0x015F;"]

/-- Lines 181 to 240 of src/iso6937_tables.cc. -/
def isoTablesCc4 : List Str := [
  b!"\tcedilla['t'] = 0x0163;",
  b!"",
  b!"\tdouble_acute['O'] = 0x0150;",
  b!"\tdouble_acute['U'] = 0x0170;",
  b!"\tdouble_acute['o'] = 0x0151;",
  b!"\tdouble_acute['u'] = 0x0171;",
  b!"",
  b!"\togonek['A'] = 0x0104;",
  b!"\togonek['E'] = 0x0118;",
  b!"\togonek['I'] = 0x012E;",
  b!"\togonek['U'] = 0x0172;",
  b!"\togonek['a'] = 0x0105;",
  b!"\togonek['e'] = 0x0119;",
  b!"\togonek['u'] = 0x0173;",
  b!"\togonek['i'] = 0x012F;",
  b!"",
  b!"\tcaron['C'] = 0x010C;",
  b!"\tcaron['D'] = 0x010E;",
  b!"\tcaron['E'] = 0x011A;",
  b!"\tcaron['L'] = 0x013D;",
  b!"\tcaron['N'] = 0x0147;",
  b!"\tcaron['R'] = 0x0158;",
  b!"\tcaron['S'] = 0x0160;",
  b!"\tcaron['T'] = 0x0164;",
  b!"\tcaron['Z'] = 0x017D;",
  b!"\tcaron['c'] = 0x010D;",
  b!"\tcaron['d'] = 0x010F;",
  b!"\tcaron['e'] = 0x011B;",
  b!"\tcaron['l'] = 0x013E;",
  b!"\tcaron['n'] = 0x0148;",
  b!"\tcaron['r'] = 0x0159;",
  b!"\tcaron['s'] = 0x0161;",
  b!"\tcaron['t'] = 0x0165;",
  b!"\tcaron['z'] = 0x017E;",
  b!"",
  b!"\tmain[10] = 0x000A;",
  b!"\tmain[' '] = 0x0020;",
  b!"\tmain['!'] = 0x0021;",
  b!"\tmain['\"'] = 0x0022;",
  b!"\tmain['#'] = 0x0023;",
  b!"\tmain['$'] = 0x0024;",
  b!"\tmain['%'] = 0x0025;",
  b!"\tmain['&'] = 0x0026;",
  b!"\tmain['\\''] = 0x0027;",
  b!"\tmain['('] = 0x0028;",
  b!"\tmain[')'] = 0x0029;",
  b!"\tmain['*'] = 0x002a;",
  b!"\tmain['+'] = 0x002b;",
  b!"\tmain[','] = 0x002c;",
  b!"\tmain['-'] = 0x002d;",
  b!"\tmain['.'] = 0x002e;",
  b!"\tmain['/'] = 0x002f;",
  b!"\tmain['0'] = 0x0030;",
  b!"\tmain['1'] = 0x0031;",
  b!"\tmain['2'] = 0x0032;",
  b!"\tmain['3'] = 0x0033;",
  b!"\tmain['4'] = 0x0034;",
  b!"\tmain['5'] = 0x0035;",
  b!"\tmain['6'] = 0x0036;",
  b!"\tmain['7'] = 0x0037;"]

/-- Lines 241 to 300 of src/iso6937_tables.cc. -/
def isoTablesCc5 : List Str := [
  b!"\tmain['8'] = 0x0038;",
  b!"\tmain['9'] = 0x0039;",
  b!"\tmain[':'] = 0x003a;",
  b!"\tmain[';'] = 0x003b;",
  b!"\tmain['<'] = 0x003c;",
  b!"\tmain['='] = 0x003d;",
  b!"\tmain['>'] = 0x003e;",
  b!"\tmain['?'] = 0x003f;",
  b!"\tmain['@'] = 0x0040;",
  b!"\tmain['A'] = 0x0041;",
  b!"\tmain['B'] = 0x0042;",
  b!"\tmain['C'] = 0x0043;",
  b!"\tmain['D'] = 0x0044;",
  b!"\tmain['E'] = 0x0045;",
  b!"\tmain['F'] = 0x0046;",
  b!"\tmain['G'] = 0x0047;",
  b!"\tmain['H'] = 0x0048;",
  b!"\tmain['I'] = 0x0049;",
  b!"\tmain['J'] = 0x004a;",
  b!"\tmain['K'] = 0x004b;",
  b!"\tmain['L'] = 0x004c;",
  b!"\tmain['M'] = 0x004d;",
  b!"\tmain['N'] = 0x004e;",
  b!"\tmain['O'] = 0x004f;",
  b!"\tmain['P'] = 0x0050;",
  b!"\tmain['Q'] = 0x0051;",
  b!"\tmain['R'] = 0x0052;",
  b!"\tmain['S'] = 0x0053;",
  b!"\tmain['T'] = 0x0054;",
  b!"\tmain['U'] = 0x0055;",
  b!"\tmain['V'] = 0x0056;",
  b!"\tmain['W'] = 0x0057;",
  b!"\tmain['X'] = 0x0058;",
  b!"\tmain['Y'] = 0x0059;",
  b!"\tmain['Z'] = 0x005a;",
  b!"\tmain['['] = 0x005b;",
  b!"\tmain['\\\\'] = 0x005c;",
  b!"\tmain[']'] = 0x005d;",
  b!"\tmain['^'] = 0x005e;",
  b!"\tmain['_'] = 0x005f;",
  b!"\tmain['`'] = 0x0060;",
  b!"\tmain['a'] = 0x0061;",
  b!"\tmain['b'] = 0x0062;",
  b!"\tmain['c'] = 0x0063;",
  b!"\tmain['d'] = 0x0064;",
  b!"\tmain['e'] = 0x0065;",
  b!"\tmain['f'] = 0x0066;",
  b!"\tmain['g'] = 0x0067;",
  b!"\tmain['h'] = 0x0068;",
  b!"\tmain['i'] = 0x0069;",
  b!"\tmain['j'] = 0x006a;",
  b!"\tmain['k'] = 0x006b;",
  b!"\tmain['l'] = 0x006c;",
  b!"\tmain['m'] = 0x006d;",
  b!"\tmain['n'] = 0x006e;",
  b!"\tmain['o'] = 0x006f;",
  b!"\tmain['p'] = 0x0070;",
  b!"\tmain['q'] = 0x0071;",
  b!"\tmain['r'] = 0x0072;",
  b!"\tmain['s'] = 0x0073;"]

/-- Lines 301 to 360 of src/iso6937_tables.cc. -/
def isoTablesCc6 : List Str := [
  b!"\tmain['t'] = 0x0074;",
  b!"\tmain['u'] = 0x0075;",
  b!"\tmain['v'] = 0x0076;",
  b!"\tmain['w'] = 0x0077;",
  b!"\tmain['x'] = 0x0078;",
  b!"\tmain['y'] = 0x0079;",
  b!"\tmain['z'] = 0x007a;",
  b!"\tmain['{'] = 0x007b;",
  b!"\tmain['|'] = 0x007c;",
  b!"\tmain['}'] = 0x007d;",
  b!"\tmain['~'] = 0x007e;",
  b!"\tmain[161U] = 0x00A1;",
  b!"\tmain[162U] = 0x00A2;",
  b!"\tmain[163U] = 0x00A3;",
  b!"\tmain[164U] = 0x0024;",
  b!"\tmain[165U] = 0x00A5;",
  b!"\tmain[167U] = 0x00A7;",
  b!"\tmain[168U] = 0x00A4;",
  b!"\tmain[169U] = 0x2018;",
  b!"\tmain[170U] = 0x201C;",
  b!"\tmain[171U] = 0x00AB;",
  b!"\tmain[172U] = 0x2190;",
  b!"\tmain[173U] = 0x2191;",
  b!"\tmain[174U] = 0x2192;",
  b!"\tmain[175U] = 0x2193;",
  b!"\tmain[176U] = 0x00B0;",
  b!"\tmain[177U] = 0x00B1;",
  b!"\tmain[178U] = 0x00B2;",
  b!"\tmain[179U] = 0x00B3;",
  b!"\tmain[180U] = 0x00D7;",
  b!"\tmain[181U] = 0x00B5;",
  b!"\tmain[182U] = 0x00B6;",
  b!"\tmain[183U] = 0x00B7;",
  b!"\tmain[184U] = 0x00F7;",
  b!"\tmain[185U] = 0x2019;",
  b!"\tmain[186U] = 0x201D;",
  b!"\tmain[187U] = 0x00BB;",
  b!"\tmain[188U] = 0x00BC;",
  b!"\tmain[189U] = 0x00BD;",
  b!"\tmain[190U] = 0x00BE;",
  b!"\tmain[191U] = 0x00BF;",
  b!"\tmain[193U] = 0x0300;",
  b!"\tmain[194U] = 0x0301;",
  b!"\tmain[195U] = 0x0302;",
  b!"\tmain[196U] = 0x0303;",
  b!"\tmain[197U] = 0x0304;",
  b!"\tmain[198U] = 0x0306;",
  b!"\tmain[199U] = 0x0307;",
  b!"\tmain[200U] = 0x0308;",
  b!"\tmain[202U] = 0x030A;",
  b!"\tmain[203U] = 0x0327;",
  b!"\tmain[205U] = 0x030B;",
  b!"\tmain[206U] = 0x032B;",
  b!"\tmain[207U] = 0x030C;",
  b!"\tmain[208U] = 0x2015;",
  b!"\tmain[209U] = 0x00B9;",
  b!"\tmain[210U] = 0x00AE;",
  b!"\tmain[211U] = 0x00A9;",
  b!"\tmain[212U] = 0x2122;",
  b!"\tmain[213U] = 0x266A;"]

/-- Lines 361 to 412 of src/iso6937_tables.cc. -/
def isoTablesCc7 : List Str := [
  b!"\tmain[214U] = 0x00AC;",
  b!"\tmain[215U] = 0x00A6;",
  b!"\tmain[220U] = 0x215B;",
  b!"\tmain[221U] = 0x215C;",
  b!"\tmain[222U] = 0x215D;",
  b!"\tmain[223U] = 0x215E;",
  b!"\tmain[224U] = 0x2126;",
  b!"\tmain[225U] = 0x00C6;",
  b!"\tmain[226U] = 0x0110;",
  b!"\tmain[227U] = 0x00AA;",
  b!"\tmain[228U] = 0x0126;",
  b!"\tmain[230U] = 0x0132;",
  b!"\tmain[231U] = 0x013F;",
  b!"\tmain[232U] = 0x0141;",
  b!"\tmain[233U] = 0x00D8;",
  b!"\tmain[234U] = 0x0152;",
  b!"\tmain[235U] = 0x00BA;",
  b!"\tmain[236U] = 0x00DE;",
  b!"\tmain[237U] = 0x0166;",
  b!"\tmain[238U] = 0x014A;",
  b!"\tmain[239U] = 0x0149;",
  b!"\tmain[240U] = 0x0138;",
  b!"\tmain[241U] = 0x00E6;",
  b!"\tmain[242U] = 0x0111;",
  b!"\tmain[243U] = 0x00F0;",
  b!"\tmain[244U] = 0x0127;",
  b!"\tmain[245U] = 0x0131;",
  b!"\tmain[246U] = 0x0133;",
  b!"\tmain[247U] = 0x0140;",
  b!"\tmain[248U] = 0x0142;",
  b!"\tmain[249U] = 0x00F8;",
  b!"\tmain[250U] = 0x0153;",
  b!"\tmain[251U] = 0x00DF;",
  b!"\tmain[252U] = 0x00FE;",
  b!"\tmain[253U] = 0x0167;",
  b!"\tmain[254U] = 0x014B;",
  b!"\tmain[255U] = 0x00AD;",
  b!"",
  b!"\tdiacriticals[0xc1] = &grave;",
  b!"\tdiacriticals[0xc2] = &acute;",
  b!"\tdiacriticals[0xc3] = &circumflex;",
  b!"\tdiacriticals[0xc4] = &tilde;",
  b!"\tdiacriticals[0xc5] = &macron;",
  b!"\tdiacriticals[0xc6] = &breve;",
  b!"\tdiacriticals[0xc7] = &dot;",
  b!"\tdiacriticals[0xc8] = &diaeresis;",
  b!"\tdiacriticals[0xca] = &ring;",
  b!"\tdiacriticals[0xcb] = &cedilla;",
  b!"\tdiacriticals[0xcd] = &double_acute;",
  b!"\tdiacriticals[0xce] = &ogonek;",
  b!"\tdiacriticals[0xcf] = &caron;",
  b!"}"]

/-- The lines of src/iso6937_tables.cc. -/
def isoTablesCc : List Str := isoTablesCc1 ++ isoTablesCc2 ++ isoTablesCc3 ++ isoTablesCc4 ++ isoTablesCc5 ++ isoTablesCc6 ++ isoTablesCc7

/-- Lines 1 to 47 of src/iso6937_tables.h. -/
def isoTablesH1 : List Str := [
  b!"/*",
  b!"    Copyright (C) 2014 Carl Hetherington <cth@carlh.net>",
  b!"",
  b!"    This program is free software; you can redistribute it and/or modify",
  b!"    it under the terms of the GNU General Public License as published by",
  b!"    the Free Software Foundation; either version 2 of the License, or",
  b!"    (at your option) any later version.",
  b!"",
  b!"    This program is distributed in the hope that it will be useful,",
  b!"    but WITHOUT ANY WARRANTY; without even the implied warranty of",
  b!"    MERCHANTABILITY or FITNESS FOR A PARTICULAR PURPOSE.  See the",
  b!"    GNU General Public License for more details.",
  b!"",
  b!"    You should have received a copy of the GNU General Public License",
  b!"    along with this program; if not, write to the Free Software",
  b!"    Foundation, Inc., 675 Mass Ave, Cambridge, MA 02139, USA.",
  b!"",
  b!"*/",
  b!"",
  b!"/* THIS FILE WAS AUTO-GENERATED BY iso6937.py */",
  b!"",
  b!"#include <map>",
  b!"",
  b!"namespace sub {",
  b!"",
  b!"extern void make_iso6937_tables ();",
  b!"",
  b!"namespace iso6937 {",
  b!"",
  b!"extern std::map<char, wchar_t> main;",
  b!"extern std::map<char, std::map<char, wchar_t> *> diacriticals;",
  b!"extern std::map<char, wchar_t> grave;",
  b!"extern std::map<char, wchar_t> acute;",
  b!"extern std::map<char, wchar_t> circumflex;",
  b!"extern std::map<char, wchar_t> tilde;",
  b!"extern std::map<char, wchar_t> macron;",
  b!"extern std::map<char, wchar_t> breve;",
  b!"extern std::map<char, wchar_t> dot;",
  b!"extern std::map<char, wchar_t> diaeresis;",
  b!"extern std::map<char, wchar_t> ring;",
  b!"extern std::map<char, wchar_t> cedilla;",
  b!"extern std::map<char, wchar_t> double_acute;",
  b!"extern std::map<char, wchar_t> ogonek;",
  b!"extern std::map<char, wchar_t> caron;",
  b!"",
  b!"}",
  b!"}"]

/-- The lines of src/iso6937_tables.h. -/
def isoTablesH : List Str := isoTablesH1

end LibSub
