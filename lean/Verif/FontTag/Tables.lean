/-! # The dictionaries of OpenType tags

Generated mechanically from `core/fonttagdataids.cpp` and `core/fonttagdataids_p.h`: the tables that map an identifier to a tag, and the
tables that hash a tag to an identifier. A tag such as `'k','e','r','n'` is the number `0x6B65726E`
(`BL_MAKE_TAG`, `core/api.h`). The dictionary of languages, which no public function uses, is left out. -/
namespace Blend2D.FontTag

/-- `table_id_to_tag_table`, `fonttagdataids.cpp:15-88` (72 tags). -/
def tableTags : Array UInt32 := #[
  0x42415345, 0x43424454, 0x43424C43, 0x43464620, 0x43464632, 0x434F4C52, 0x4350414C, 0x44534947,
  0x45424454, 0x45424C43, 0x45425343, 0x47444546, 0x47504F53, 0x47535542, 0x48564152, 0x4A535446,
  0x4C545348, 0x4D415448, 0x4D455247, 0x4D564152, 0x4F532F32, 0x50434C54, 0x53544154, 0x53564720,
  0x56444D58, 0x564F5247, 0x56564152, 0x5A617066, 0x61636E74, 0x616E6B72, 0x61766172, 0x62646174,
  0x62686564, 0x626C6F63, 0x62736C6E, 0x636D6170, 0x63766172, 0x63767420, 0x66647363, 0x66656174,
  0x666D7478, 0x666F6E64, 0x6670676D, 0x66766172, 0x67617370, 0x67636964, 0x676C7966, 0x67766172,
  0x68646D78, 0x68656164, 0x68686561, 0x686D7478, 0x6A757374, 0x6B65726E, 0x6B657278, 0x6C636172,
  0x6C6F6361, 0x6C746167, 0x6D617870, 0x6D657461, 0x6D6F7274, 0x6D6F7278, 0x6E616D65, 0x6F706264,
  0x706F7374, 0x70726570, 0x70726F70, 0x73626978, 0x7472616B, 0x76686561, 0x766D7478, 0x78726566]

/-- `script_id_to_tag_table`, `fonttagdataids.cpp:93-268` (173 tags). -/
def scriptTags : Array UInt32 := #[
  0x44464C54, 0x61646C6D, 0x61676862, 0x61686F6D, 0x61726162, 0x61726D69, 0x61726D6E, 0x61767374,
  0x62616C69, 0x62616D75, 0x62617373, 0x6261746B, 0x62656E67, 0x62686B73, 0x626E6732, 0x626F706F,
  0x62726168, 0x62726169, 0x62756769, 0x62756864, 0x62797A6D, 0x63616B6D, 0x63616E73, 0x63617269,
  0x6368616D, 0x63686572, 0x63687273, 0x636F7074, 0x63706D6E, 0x63707274, 0x6379726C, 0x64657632,
  0x64657661, 0x6469616B, 0x646F6772, 0x64737274, 0x6475706C, 0x65677970, 0x656C6261, 0x656C796D,
  0x65746869, 0x67656F72, 0x676A7232, 0x676C6167, 0x676F6E67, 0x676F6E6D, 0x676F7468, 0x6772616E,
  0x6772656B, 0x67756A72, 0x67757232, 0x67757275, 0x68616E67, 0x68616E69, 0x68616E6F, 0x68617472,
  0x68656272, 0x686C7577, 0x686D6E67, 0x686D6E70, 0x68756E67, 0x6974616C, 0x6A616D6F, 0x6A617661,
  0x6B616C69, 0x6B616E61, 0x6B686172, 0x6B686D72, 0x6B686F6A, 0x6B697473, 0x6B6E6432, 0x6B6E6461,
  0x6B746869, 0x6C616E61, 0x6C616F20, 0x6C61746E, 0x6C657063, 0x6C696D62, 0x6C696E61, 0x6C696E62,
  0x6C697375, 0x6C796369, 0x6C796469, 0x6D61686A, 0x6D616B61, 0x6D616E64, 0x6D616E69, 0x6D617263,
  0x6D617468, 0x6D656466, 0x6D656E64, 0x6D657263, 0x6D65726F, 0x6D6C6D32, 0x6D6C796D, 0x6D6F6469,
  0x6D6F6E67, 0x6D726F6F, 0x6D746569, 0x6D756C74, 0x6D757363, 0x6D796D32, 0x6D796D72, 0x6E616E64,
  0x6E617262, 0x6E626174, 0x6E657761, 0x6E6B6F20, 0x6E736875, 0x6F67616D, 0x6F6C636B, 0x6F726B68,
  0x6F727932, 0x6F727961, 0x6F736765, 0x6F736D61, 0x6F756772, 0x70616C6D, 0x70617563, 0x7065726D,
  0x70686167, 0x70686C69, 0x70686C70, 0x70686E78, 0x706C7264, 0x70727469, 0x726A6E67, 0x726F6867,
  0x72756E72, 0x73616D72, 0x73617262, 0x73617572, 0x73676E77, 0x73686177, 0x73687264, 0x73696464,
  0x73696E64, 0x73696E68, 0x736F6764, 0x736F676F, 0x736F7261, 0x736F796F, 0x73756E64, 0x73796C6F,
  0x73797263, 0x74616762, 0x74616B72, 0x74616C65, 0x74616C75, 0x74616D6C, 0x74616E67, 0x74617674,
  0x74656C32, 0x74656C75, 0x74666E67, 0x74676C67, 0x74686161, 0x74686169, 0x74696274, 0x74697268,
  0x746D6C32, 0x746E7361, 0x746F746F, 0x75676172, 0x76616920, 0x76697468, 0x77617261, 0x7763686F,
  0x7870656F, 0x78737578, 0x79657A69, 0x79692020, 0x7A616E62]

/-- `feature_id_to_tag_table`, `fonttagdataids.cpp:913-1155` (241 tags). -/
def featureTags : Array UInt32 := #[
  0x61616C74, 0x61627666, 0x6162766D, 0x61627673, 0x61667263, 0x616B686E, 0x626C7766, 0x626C776D,
  0x626C7773, 0x63327063, 0x63327363, 0x63616C74, 0x63617365, 0x63636D70, 0x63666172, 0x63687773,
  0x636A6374, 0x636C6967, 0x63706374, 0x63707370, 0x63737768, 0x63757273, 0x63763031, 0x63763032,
  0x63763033, 0x63763034, 0x63763035, 0x63763036, 0x63763037, 0x63763038, 0x63763039, 0x63763130,
  0x63763131, 0x63763132, 0x63763133, 0x63763134, 0x63763135, 0x63763136, 0x63763137, 0x63763138,
  0x63763139, 0x63763230, 0x63763231, 0x63763232, 0x63763233, 0x63763234, 0x63763235, 0x63763236,
  0x63763237, 0x63763238, 0x63763239, 0x63763330, 0x63763331, 0x63763332, 0x63763333, 0x63763334,
  0x63763335, 0x63763336, 0x63763337, 0x63763338, 0x63763339, 0x63763430, 0x63763431, 0x63763432,
  0x63763433, 0x63763434, 0x63763435, 0x63763436, 0x63763437, 0x63763438, 0x63763439, 0x63763530,
  0x63763531, 0x63763532, 0x63763533, 0x63763534, 0x63763535, 0x63763536, 0x63763537, 0x63763538,
  0x63763539, 0x63763630, 0x63763631, 0x63763632, 0x63763633, 0x63763634, 0x63763635, 0x63763636,
  0x63763637, 0x63763638, 0x63763639, 0x63763730, 0x63763731, 0x63763732, 0x63763733, 0x63763734,
  0x63763735, 0x63763736, 0x63763737, 0x63763738, 0x63763739, 0x63763830, 0x63763831, 0x63763832,
  0x63763833, 0x63763834, 0x63763835, 0x63763836, 0x63763837, 0x63763838, 0x63763839, 0x63763930,
  0x63763931, 0x63763932, 0x63763933, 0x63763934, 0x63763935, 0x63763936, 0x63763937, 0x63763938,
  0x63763939, 0x64697374, 0x646C6967, 0x646E6F6D, 0x64746C73, 0x65787074, 0x66616C74, 0x66696E32,
  0x66696E33, 0x66696E61, 0x666C6163, 0x66726163, 0x66776964, 0x68616C66, 0x68616C6E, 0x68616C74,
  0x68697374, 0x686B6E61, 0x686C6967, 0x686E676C, 0x686F6A6F, 0x68776964, 0x696E6974, 0x69736F6C,
  0x6974616C, 0x6A616C74, 0x6A703034, 0x6A703738, 0x6A703833, 0x6A703930, 0x6B65726E, 0x6C666264,
  0x6C696761, 0x6C6A6D6F, 0x6C6E756D, 0x6C6F636C, 0x6C747261, 0x6C74726D, 0x6D61726B, 0x6D656432,
  0x6D656469, 0x6D67726B, 0x6D6B6D6B, 0x6D736574, 0x6E616C74, 0x6E6C636B, 0x6E756B74, 0x6E756D72,
  0x6F6E756D, 0x6F706264, 0x6F72646E, 0x6F726E6D, 0x70616C74, 0x70636170, 0x706B6E61, 0x706E756D,
  0x70726566, 0x70726573, 0x70737466, 0x70737473, 0x70776964, 0x71776964, 0x72616E64, 0x72636C74,
  0x726B7266, 0x726C6967, 0x72706866, 0x72746264, 0x72746C61, 0x72746C6D, 0x72756279, 0x7276726E,
  0x73616C74, 0x73696E66, 0x73697A65, 0x736D6370, 0x736D706C, 0x73733031, 0x73733032, 0x73733033,
  0x73733034, 0x73733035, 0x73733036, 0x73733037, 0x73733038, 0x73733039, 0x73733130, 0x73733131,
  0x73733132, 0x73733133, 0x73733134, 0x73733135, 0x73733136, 0x73733137, 0x73733138, 0x73733139,
  0x73733230, 0x73737479, 0x73746368, 0x73756273, 0x73757073, 0x73777368, 0x7469746C, 0x746A6D6F,
  0x746E616D, 0x746E756D, 0x74726164, 0x74776964, 0x756E6963, 0x76616C74, 0x76617475, 0x76636877,
  0x76657274, 0x7668616C, 0x766A6D6F, 0x766B6E61, 0x766B726E, 0x7670616C, 0x76727432, 0x76727472,
  0x7A65726F]

/-- `baseline_id_to_tag_table`, `fonttagdataids.cpp:1160-1170` (9 tags). -/
def baselineTags : Array UInt32 := #[
  0x49636663, 0x49646365, 0x68616E67, 0x69636662, 0x69636674, 0x6964656F, 0x69647470, 0x6D617468,
  0x726F6D6E]

/-- `variation_id_to_tag_table`, `fonttagdataids.cpp:1175-1181` (5 tags). -/
def variationTags : Array UInt32 := #[
  0x6974616C, 0x6F70737A, 0x736C6E74, 0x77647468, 0x77676874]

/-- `hash_table` of `table_tag_to_id`, `fonttagdataids_p.h:1257-1264`. -/
def tableHash1 : Array Nat := #[
  44, 0, 0, 26, 0, 0, 0, 0, 0, 0, 71, 67, 0, 0, 24, 6, 46, 0, 43, 30, 29, 39, 1, 49,
  0, 0, 0, 69, 31, 19, 14, 63, 0, 0, 52, 0, 0, 0, 40, 0, 17, 0, 34, 0, 47, 33, 28, 0,
  37, 62, 20, 0, 11, 0, 50, 0, 18, 0, 0, 0, 0, 38, 70, 2, 5, 13, 0, 0, 0, 23, 36, 0,
  22, 8, 0, 0, 7, 45, 0, 64, 48, 0, 25, 55, 0, 0, 41, 16, 10, 51, 59, 0, 0, 57, 0, 66,
  61, 0, 58, 0, 4, 0, 0, 0, 21, 53, 0, 15, 0, 35, 32, 0, 0, 68, 9, 0, 60, 0, 42, 0,
  54, 0, 27, 0, 0, 3, 56, 12]

/-- `hash_table` of `script_tag_to_id`, `fonttagdataids_p.h:1280-1292`. -/
def scriptHash1 : Array Nat := #[
  45, 0, 162, 127, 94, 21, 140, 113, 122, 0, 0, 50, 65, 4, 126, 32, 124, 107, 78, 59, 0, 133, 128, 20,
  101, 120, 0, 51, 54, 55, 83, 0, 156, 154, 97, 144, 0, 109, 52, 6, 74, 151, 145, 23, 90, 73, 0, 42,
  121, 79, 149, 115, 158, 164, 0, 112, 30, 85, 46, 129, 0, 63, 0, 136, 40, 160, 0, 93, 138, 91, 71, 44,
  26, 68, 170, 0, 29, 0, 49, 146, 0, 33, 87, 0, 130, 11, 98, 0, 141, 36, 110, 0, 152, 105, 89, 18,
  72, 69, 0, 53, 116, 0, 150, 96, 31, 1, 15, 0, 153, 171, 0, 142, 0, 75, 111, 84, 157, 0, 16, 0,
  0, 148, 134, 48, 0, 10, 0, 125, 80, 0, 0, 0, 39, 0, 0, 0, 88, 41, 0, 0, 147, 5, 28, 132,
  57, 38, 167, 19, 0, 17, 0, 0, 169, 95, 123, 0, 0, 0, 70, 47, 99, 0, 159, 67, 0, 0, 7, 8,
  0, 0, 131, 0, 0, 168, 62, 0, 161, 165, 0, 25, 27, 0, 155, 92, 0, 0, 137, 61, 0, 106, 0, 0,
  0, 143, 117, 56, 119, 3, 0, 0, 82, 0, 0, 102, 118, 0, 0, 77, 0, 0, 0, 86, 2, 0, 0, 64,
  14, 135, 114, 43, 139, 0, 100, 163, 0, 24, 0, 60, 104, 108, 0, 9, 34, 103, 0, 0, 172, 0, 0, 0,
  0, 37, 35, 22, 0, 166, 13, 0, 12, 76, 81, 66, 0, 0, 58, 0]

/-- `hashTable1` of `feature_tag_to_id`, `fonttagdataids_p.h:1401-1413`. -/
def featureHash1 : Array Nat := #[
  30, 0, 40, 160, 50, 0, 60, 0, 70, 225, 80, 0, 90, 0, 100, 0, 110, 193, 120, 0, 204, 144, 23, 156,
  33, 0, 43, 0, 53, 186, 63, 139, 73, 0, 83, 163, 93, 137, 103, 184, 113, 166, 197, 145, 207, 0, 27, 143,
  37, 175, 47, 0, 57, 129, 67, 0, 77, 0, 87, 168, 97, 0, 107, 135, 117, 240, 201, 0, 211, 0, 0, 124,
  0, 142, 149, 0, 0, 190, 0, 15, 146, 0, 0, 126, 0, 3, 0, 0, 0, 154, 205, 127, 24, 136, 34, 13,
  44, 8, 54, 20, 64, 12, 74, 170, 84, 234, 94, 133, 104, 191, 114, 0, 198, 11, 208, 226, 28, 0, 38, 9,
  48, 0, 58, 233, 68, 10, 78, 182, 88, 231, 98, 0, 108, 0, 118, 0, 202, 0, 212, 237, 31, 187, 41, 0,
  51, 150, 61, 125, 71, 0, 81, 0, 91, 235, 101, 134, 111, 123, 0, 219, 0, 128, 25, 158, 35, 0, 45, 0,
  55, 0, 65, 0, 75, 130, 85, 161, 95, 2, 105, 229, 115, 0, 199, 222, 209, 131, 29, 220, 39, 7, 49, 195,
  59, 138, 69, 221, 79, 173, 89, 1, 99, 0, 109, 0, 119, 153, 203, 188, 22, 192, 32, 6, 42, 174, 52, 0,
  62, 14, 72, 0, 82, 179, 92, 183, 102, 224, 112, 194, 0, 0, 206, 0, 26, 122, 36, 152, 46, 5, 56, 172,
  66, 155, 76, 17, 86, 4, 96, 0, 106, 140, 116, 0, 200, 0, 210, 0]

/-- `hashTable2` of `feature_tag_to_id`, `fonttagdataids_p.h:1415-1419`. -/
def featureHash2 : Array Nat := #[
  230, 0, 213, 214, 215, 16, 0, 147, 0, 0, 0, 162, 178, 0, 167, 238, 169, 0, 0, 0, 217, 0, 0, 227,
  159, 132, 232, 157, 181, 0, 223, 18, 165, 19, 218, 185, 121, 0, 0, 0, 0, 176, 0, 141, 0, 0, 216, 189,
  236, 196, 177, 180, 148, 164, 0, 171, 0, 228, 0, 0, 239, 21, 0, 151]

/-- `hash_table` of `baseline_tag_to_id`, `fonttagdataids_p.h:1439-1441`. -/
def baselineHash1 : Array Nat := #[
  0, 1, 5, 0, 3, 4, 0, 0, 0, 2, 0, 0, 8, 0, 7, 6]

/-- `hash_table` of `variation_tag_to_id`, `fonttagdataids_p.h:1454-1456`. -/
def variationHash1 : Array Nat := #[
  0, 0, 0, 3, 4, 2, 1, 0]

end Blend2D.FontTag
