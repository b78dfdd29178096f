import Verif.Lemmas.CrcOrder
/-
The powers of `x` modulo the polynomial of CRC-32: tables that are checked here, not trusted.
-/
namespace Rescene

/-- The operators for 1, 2, 4, ... zero bits. -/
def powerTable : List (List (BitVec 32)) := [
  [0xEDB88320, 0x00000001, 0x00000002, 0x00000004, 0x00000008, 0x00000010, 0x00000020, 0x00000040, 0x00000080, 0x00000100, 0x00000200, 0x00000400, 0x00000800, 0x00001000, 0x00002000, 0x00004000, 0x00008000, 0x00010000, 0x00020000, 0x00040000, 0x00080000, 0x00100000, 0x00200000, 0x00400000, 0x00800000, 0x01000000, 0x02000000, 0x04000000, 0x08000000, 0x10000000, 0x20000000, 0x40000000],
  [0x76DC4190, 0xEDB88320, 0x00000001, 0x00000002, 0x00000004, 0x00000008, 0x00000010, 0x00000020, 0x00000040, 0x00000080, 0x00000100, 0x00000200, 0x00000400, 0x00000800, 0x00001000, 0x00002000, 0x00004000, 0x00008000, 0x00010000, 0x00020000, 0x00040000, 0x00080000, 0x00100000, 0x00200000, 0x00400000, 0x00800000, 0x01000000, 0x02000000, 0x04000000, 0x08000000, 0x10000000, 0x20000000],
  [0x1DB71064, 0x3B6E20C8, 0x76DC4190, 0xEDB88320, 0x00000001, 0x00000002, 0x00000004, 0x00000008, 0x00000010, 0x00000020, 0x00000040, 0x00000080, 0x00000100, 0x00000200, 0x00000400, 0x00000800, 0x00001000, 0x00002000, 0x00004000, 0x00008000, 0x00010000, 0x00020000, 0x00040000, 0x00080000, 0x00100000, 0x00200000, 0x00400000, 0x00800000, 0x01000000, 0x02000000, 0x04000000, 0x08000000],
  [0x77073096, 0xEE0E612C, 0x076DC419, 0x0EDB8832, 0x1DB71064, 0x3B6E20C8, 0x76DC4190, 0xEDB88320, 0x00000001, 0x00000002, 0x00000004, 0x00000008, 0x00000010, 0x00000020, 0x00000040, 0x00000080, 0x00000100, 0x00000200, 0x00000400, 0x00000800, 0x00001000, 0x00002000, 0x00004000, 0x00008000, 0x00010000, 0x00020000, 0x00040000, 0x00080000, 0x00100000, 0x00200000, 0x00400000, 0x00800000],
  [0x191B3141, 0x32366282, 0x646CC504, 0xC8D98A08, 0x4AC21251, 0x958424A2, 0xF0794F05, 0x3B83984B, 0x77073096, 0xEE0E612C, 0x076DC419, 0x0EDB8832, 0x1DB71064, 0x3B6E20C8, 0x76DC4190, 0xEDB88320, 0x00000001, 0x00000002, 0x00000004, 0x00000008, 0x00000010, 0x00000020, 0x00000040, 0x00000080, 0x00000100, 0x00000200, 0x00000400, 0x00000800, 0x00001000, 0x00002000, 0x00004000, 0x00008000],
  [0xB8BC6765, 0xAA09C88B, 0x8F629757, 0xC5B428EF, 0x5019579F, 0xA032AF3E, 0x9B14583D, 0xED59B63B, 0x01C26A37, 0x0384D46E, 0x0709A8DC, 0x0E1351B8, 0x1C26A370, 0x384D46E0, 0x709A8DC0, 0xE1351B80, 0x191B3141, 0x32366282, 0x646CC504, 0xC8D98A08, 0x4AC21251, 0x958424A2, 0xF0794F05, 0x3B83984B, 0x77073096, 0xEE0E612C, 0x076DC419, 0x0EDB8832, 0x1DB71064, 0x3B6E20C8, 0x76DC4190, 0xEDB88320],
  [0xCCAA009E, 0x4225077D, 0x844A0EFA, 0xD3E51BB5, 0x7CBB312B, 0xF9766256, 0x299DC2ED, 0x533B85DA, 0xA6770BB4, 0x979F1129, 0xF44F2413, 0x33EF4E67, 0x67DE9CCE, 0xCFBD399C, 0x440B7579, 0x8816EAF2, 0xCB5CD3A5, 0x4DC8A10B, 0x9B914216, 0xEC53826D, 0x03D6029B, 0x07AC0536, 0x0F580A6C, 0x1EB014D8, 0x3D6029B0, 0x7AC05360, 0xF580A6C0, 0x30704BC1, 0x60E09782, 0xC1C12F04, 0x58F35849, 0xB1E6B092],
  [0xAE689191, 0x87A02563, 0xD4314C87, 0x73139F4F, 0xE6273E9E, 0x173F7B7D, 0x2E7EF6FA, 0x5CFDEDF4, 0xB9FBDBE8, 0xA886B191, 0x8A7C6563, 0xCF89CC87, 0x44629F4F, 0x88C53E9E, 0xCAFB7B7D, 0x4E87F0BB, 0x9D0FE176, 0xE16EC4AD, 0x19AC8F1B, 0x33591E36, 0x66B23C6C, 0xCD6478D8, 0x41B9F7F1, 0x8373EFE2, 0xDD96D985, 0x605CB54B, 0xC0B96A96, 0x5A03D36D, 0xB407A6DA, 0xB37E4BF5, 0xBD8D91AB, 0xA06A2517],
  [0xF1DA05AA, 0x38C50D15, 0x718A1A2A, 0xE3143454, 0x1D596EE9, 0x3AB2DDD2, 0x7565BBA4, 0xEACB7748, 0x0EE7E8D1, 0x1DCFD1A2, 0x3B9FA344, 0x773F4688, 0xEE7E8D10, 0x078C1C61, 0x0F1838C2, 0x1E307184, 0x3C60E308, 0x78C1C610, 0xF1838C20, 0x38761E01, 0x70EC3C02, 0xE1D87804, 0x18C1F649, 0x3183EC92, 0x6307D924, 0xC60FB248, 0x576E62D1, 0xAEDCC5A2, 0x86C88D05, 0xD6E01C4B, 0x76B13ED7, 0xED627DAE],
  [0x8F352D95, 0xC51B5D6B, 0x5147BC97, 0xA28F792E, 0x9E6FF41D, 0xE7AEEE7B, 0x142CDAB7, 0x2859B56E, 0x50B36ADC, 0xA166D5B8, 0x99BCAD31, 0xE8085C23, 0x0B61BE07, 0x16C37C0E, 0x2D86F81C, 0x5B0DF038, 0xB61BE070, 0xB746C6A1, 0xB5FC8B03, 0xB0881047, 0xBA6126CF, 0xAFB34BDF, 0x841791FF, 0xD35E25BF, 0x7DCD4D3F, 0xFB9A9A7E, 0x2C4432BD, 0x5888657A, 0xB110CAF4, 0xB95093A9, 0xA9D02113, 0x88D14467],
  [0x33FFF533, 0x67FFEA66, 0xCFFFD4CC, 0x448EAFD9, 0x891D5FB2, 0xC94BB925, 0x49E6740B, 0x93CCE816, 0xFCE8D66D, 0x22A0AA9B, 0x45415536, 0x8A82AA6C, 0xCE745299, 0x4799A373, 0x8F3346E6, 0xC5178B8D, 0x515E115B, 0xA2BC22B6, 0x9E09432D, 0xE763801B, 0x15B60677, 0x2B6C0CEE, 0x56D819DC, 0xADB033B8, 0x80116131, 0xDB53C423, 0x6DD68E07, 0xDBAD1C0E, 0x6C2B3E5D, 0xD8567CBA, 0x6BDDFF35, 0xD7BBFE6A],
  [0xCE3371CB, 0x4717E5D7, 0x8E2FCBAE, 0xC72E911D, 0x552C247B, 0xAA5848F6, 0x8FC197AD, 0xC4F2291B, 0x52955477, 0xA52AA8EE, 0x9124579D, 0xF939A97B, 0x290254B7, 0x5204A96E, 0xA40952DC, 0x9363A3F9, 0xFDB641B3, 0x201D8527, 0x403B0A4E, 0x8076149C, 0xDB9D2F79, 0x6C4B58B3, 0xD896B166, 0x6A5C648D, 0xD4B8C91A, 0x72009475, 0xE40128EA, 0x13735795, 0x26E6AF2A, 0x4DCD5E54, 0x9B9ABCA8, 0xEC447F11],
  [0x1072DB28, 0x20E5B650, 0x41CB6CA0, 0x8396D940, 0xDC5CB4C1, 0x63C86FC3, 0xC790DF86, 0x5450B94D, 0xA8A1729A, 0x8A33E375, 0xCF16C0AB, 0x455C8717, 0x8AB90E2E, 0xCE031A1D, 0x4777327B, 0x8EEE64F6, 0xC6ADCFAD, 0x562A991B, 0xAC553236, 0x83DB622D, 0xDCC7C21B, 0x62FE8277, 0xC5FD04EE, 0x508B0F9D, 0xA1161F3A, 0x995D3835, 0xE9CB762B, 0x08E7EA17, 0x11CFD42E, 0x239FA85C, 0x473F50B8, 0x8E7EA170],
  [0xF891F16F, 0x2A52E49F, 0x54A5C93E, 0xA94B927C, 0x89E622B9, 0xC8BD4333, 0x4A0B8027, 0x9417004E, 0xF35F06DD, 0x3DCF0BFB, 0x7B9E17F6, 0xF73C2FEC, 0x35095999, 0x6A12B332, 0xD4256664, 0x733BCA89, 0xE6779512, 0x179E2C65, 0x2F3C58CA, 0x5E78B194, 0xBCF16328, 0xA293C011, 0x9E568663, 0xE7DC0A87, 0x14C9134F, 0x2992269E, 0x53244D3C, 0xA6489A78, 0x97E032B1, 0xF4B16323, 0x3213C007, 0x6427800E],
  [0x88B6BA63, 0xCA1C7287, 0x4F49E34F, 0x9E93C69E, 0xE6568B7D, 0x17DC10BB, 0x2FB82176, 0x5F7042EC, 0xBEE085D8, 0xA6B00DF1, 0x96111DA3, 0xF7533D07, 0x35D77C4F, 0x6BAEF89E, 0xD75DF13C, 0x75CAE439, 0xEB95C872, 0x0C5A96A5, 0x18B52D4A, 0x316A5A94, 0x62D4B528, 0xC5A96A50, 0x5023D2E1, 0xA047A5C2, 0x9BFE4DC5, 0xEC8D9DCB, 0x026A3DD7, 0x04D47BAE, 0x09A8F75C, 0x1351EEB8, 0x26A3DD70, 0x4D47BAE0],
  [0x5AD8A92C, 0xB5B15258, 0xB013A2F1, 0xBB5643A3, 0xADDD8107, 0x80CA044F, 0xDAE50EDF, 0x6EBB1BFF, 0xDD7637FE, 0x619D69BD, 0xC33AD37A, 0x5D04A0B5, 0xBA09416A, 0xAF638495, 0x85B60F6B, 0xD01D1897, 0x7B4B376F, 0xF6966EDE, 0x365DDBFD, 0x6CBBB7FA, 0xD9776FF4, 0x699FD9A9, 0xD33FB352, 0x7D0E60E5, 0xFA1CC1CA, 0x2F4885D5, 0x5E910BAA, 0xBD221754, 0xA13528E9, 0x991B5793, 0xE947A967, 0x09FE548F],
  [0xB566F6E2, 0xB1BCEB85, 0xB808D14B, 0xAB60A4D7, 0x8DB04FEF, 0xC011999F, 0x5B52357F, 0xB6A46AFE, 0xB639D3BD, 0xB702A13B, 0xB5744437, 0xB1998E2F, 0xB8421A1F, 0xABF5327F, 0x8C9B62BF, 0xC247C33F, 0x5FFE803F, 0xBFFD007E, 0xA48B06BD, 0x92670B3B, 0xFFBF1037, 0x240F262F, 0x481E4C5E, 0x903C98BC, 0xFB083739, 0x2D616833, 0x5AC2D066, 0xB585A0CC, 0xB07A47D9, 0xBB8589F3, 0xAC7A15A7, 0x83852D0F],
  [0x9D9129BF, 0xE053553F, 0x1BD7AC3F, 0x37AF587E, 0x6F5EB0FC, 0xDEBD61F8, 0x660BC5B1, 0xCC178B62, 0x435E1085, 0x86BC210A, 0xD6094455, 0x77638EEB, 0xEEC71DD6, 0x06FF3DED, 0x0DFE7BDA, 0x1BFCF7B4, 0x37F9EF68, 0x6FF3DED0, 0xDFE7BDA0, 0x64BE7D01, 0xC97CFA02, 0x4988F245, 0x9311E48A, 0xFD52CF55, 0x21D498EB, 0x43A931D6, 0x875263AC, 0xD5D5C119, 0x70DA8473, 0xE1B508E6, 0x181B178D, 0x30362F1A],
  [0x2EE43A2C, 0x5DC87458, 0xBB90E8B0, 0xAC50D721, 0x83D0A803, 0xDCD05647, 0x62D1AACF, 0xC5A3559E, 0x5037AD7D, 0xA06F5AFA, 0x9BAFB3B5, 0xEC2E612B, 0x032DC417, 0x065B882E, 0x0CB7105C, 0x196E20B8, 0x32DC4170, 0x65B882E0, 0xCB7105C0, 0x4D930DC1, 0x9B261B82, 0xED3D3145, 0x010B64CB, 0x0216C996, 0x042D932C, 0x085B2658, 0x10B64CB0, 0x216C9960, 0x42D932C0, 0x85B26580, 0xD015CD41, 0x7B5A9CC3],
  [0x1B4511EE, 0x368A23DC, 0x6D1447B8, 0xDA288F70, 0x6F2018A1, 0xDE403142, 0x67F164C5, 0xCFE2C98A, 0x44B49555, 0x89692AAA, 0xC9A35315, 0x4837A06B, 0x906F40D6, 0xFBAF87ED, 0x2C2E099B, 0x585C1336, 0xB0B8266C, 0xBA014A99, 0xAF739373, 0x859620A7, 0xD05D470F, 0x7BCB885F, 0xF79710BE, 0x345F273D, 0x68BE4E7A, 0xD17C9CF4, 0x79883FA9, 0xF3107F52, 0x3D51F8E5, 0x7AA3F1CA, 0xF547E394, 0x31FEC169],
  [0xBCE15202, 0xA2B3A245, 0x9E1642CB, 0xE75D83D7, 0x15CA01EF, 0x2B9403DE, 0x572807BC, 0xAE500F78, 0x87D118B1, 0xD4D33723, 0x72D76807, 0xE5AED00E, 0x102CA65D, 0x20594CBA, 0x40B29974, 0x816532E8, 0xD9BB6391, 0x6807C163, 0xD00F82C6, 0x7B6E03CD, 0xF6DC079A, 0x36C90975, 0x6D9212EA, 0xDB2425D4, 0x6D394DE9, 0xDA729BD2, 0x6F9431E5, 0xDF2863CA, 0x6521C1D5, 0xCA4383AA, 0x4FF60115, 0x9FEC022A],
  [0xFF08E5EF, 0x2560CD9F, 0x4AC19B3E, 0x9583367C, 0xF0776AB9, 0x3B9FD333, 0x773FA666, 0xEE7F4CCC, 0x078F9FD9, 0x0F1F3FB2, 0x1E3E7F64, 0x3C7CFEC8, 0x78F9FD90, 0xF1F3FB20, 0x3896F001, 0x712DE002, 0xE25BC004, 0x1FC68649, 0x3F8D0C92, 0x7F1A1924, 0xFE343248, 0x271962D1, 0x4E32C5A2, 0x9C658B44, 0xE3BA10C9, 0x1C0527D3, 0x380A4FA6, 0x70149F4C, 0xE0293E98, 0x1B237B71, 0x3646F6E2, 0x6C8DEDC4],
  [0x6F76172E, 0xDEEC2E5C, 0x66A95AF9, 0xCD52B5F2, 0x41D46DA5, 0x83A8DB4A, 0xDC20B0D5, 0x633067EB, 0xC660CFD6, 0x57B099ED, 0xAF6133DA, 0x85B361F5, 0xD017C5AB, 0x7B5E8D17, 0xF6BD1A2E, 0x360B321D, 0x6C16643A, 0xD82CC874, 0x6B2896A9, 0xD6512D52, 0x77D35CE5, 0xEFA6B9CA, 0x043C75D5, 0x0878EBAA, 0x10F1D754, 0x21E3AEA8, 0x43C75D50, 0x878EBAA0, 0xD46C7301, 0x73A9E043, 0xE753C086, 0x15D6874D],
  [0x56F5CAB9, 0xADEB9572, 0x80A62CA5, 0xDA3D5F0B, 0x6F0BB857, 0xDE1770AE, 0x675FE71D, 0xCEBFCE3A, 0x460E9A35, 0x8C1D346A, 0xC34B6E95, 0x5DE7DB6B, 0xBBCFB6D6, 0xACEE6BED, 0x82ADD19B, 0xDE2AA577, 0x67244CAF, 0xCE48995E, 0x47E034FD, 0x8FC069FA, 0xC4F1D5B5, 0x5292AD2B, 0xA5255A56, 0x913BB2ED, 0xF906639B, 0x297DC177, 0x52FB82EE, 0xA5F705DC, 0x909F0DF9, 0xFA4F1DB3, 0x2FEF3D27, 0x5FDE7A4E],
  [0x385993AC, 0x70B32758, 0xE1664EB0, 0x19BD9B21, 0x337B3642, 0x66F66C84, 0xCDECD908, 0x40A8B451, 0x815168A2, 0xD9D3D705, 0x68D6A84B, 0xD1AD5096, 0x782BA76D, 0xF0574EDA, 0x3BDF9BF5, 0x77BF37EA, 0xEF7E6FD4, 0x058DD9E9, 0x0B1BB3D2, 0x163767A4, 0x2C6ECF48, 0x58DD9E90, 0xB1BB3D20, 0xB8077C01, 0xAB7FFE43, 0x8D8EFAC7, 0xC06CF3CF, 0x5BA8E1DF, 0xB751C3BE, 0xB5D2813D, 0xB0D4043B, 0xBAD90E37],
  [0xB4247B20, 0xB339F001, 0xBD02E643, 0xA174CAC7, 0x999893CF, 0xE84021DF, 0x0BF145FF, 0x17E28BFE, 0x2FC517FC, 0x5F8A2FF8, 0xBF145FF0, 0xA559B9A1, 0x91C27503, 0xF8F5EC47, 0x2A9ADECF, 0x5535BD9E, 0xAA6B7B3C, 0x8FA7F039, 0xC43EE633, 0x530CCA27, 0xA619944E, 0x97422EDD, 0xF5F55BFB, 0x309BB1B7, 0x6137636E, 0xC26EC6DC, 0x5FAC8BF9, 0xBF5917F2, 0xA5C329A5, 0x90F7550B, 0xFA9FAC57, 0x2E4E5EEF],
  [0x695186A7, 0xD2A30D4E, 0x7E371CDD, 0xFC6E39BA, 0x23AD7535, 0x475AEA6A, 0x8EB5D4D4, 0xC61AAFE9, 0x57445993, 0xAE88B326, 0x8660600D, 0xD7B1C65B, 0x74128AF7, 0xE82515EE, 0x0B3B2D9D, 0x16765B3A, 0x2CECB674, 0x59D96CE8, 0xB3B2D9D0, 0xBC14B5E1, 0xA3586D83, 0x9DC1DD47, 0xE0F2BCCF, 0x1A947FDF, 0x3528FFBE, 0x6A51FF7C, 0xD4A3FEF8, 0x7236FBB1, 0xE46DF762, 0x13AAE885, 0x2755D10A, 0x4EABA214],
  [0x66BC001E, 0xCD78003C, 0x41810639, 0x83020C72, 0xDD751EA5, 0x619B3B0B, 0xC3367616, 0x5D1DEA6D, 0xBA3BD4DA, 0xAF06AFF5, 0x857C59AB, 0xD189B517, 0x78626C6F, 0xF0C4D8DE, 0x3AF8B7FD, 0x75F16FFA, 0xEBE2DFF4, 0x0CB4B9A9, 0x19697352, 0x32D2E6A4, 0x65A5CD48, 0xCB4B9A90, 0x4DE63361, 0x9BCC66C2, 0xECE9CBC5, 0x02A291CB, 0x05452396, 0x0A8A472C, 0x15148E58, 0x2A291CB0, 0x54523960, 0xA8A472C0],
  [0xB58B27B3, 0xB0674927, 0xBBBF940F, 0xAC0E2E5F, 0x836D5AFF, 0xDDABB3BF, 0x6026613F, 0xC04CC27E, 0x5BE882BD, 0xB7D1057A, 0xB4D30CB5, 0xB2D71F2B, 0xBEDF3817, 0xA6CF766F, 0x96EFEA9F, 0xF6AED37F, 0x362CA0BF, 0x6C59417E, 0xD8B282FC, 0x6A1403B9, 0xD4280772, 0x732108A5, 0xE642114A, 0x17F524D5, 0x2FEA49AA, 0x5FD49354, 0xBFA926A8, 0xA4234B11, 0x93379063, 0xFD1E2687, 0x214D4B4F, 0x429A969E],
  [0xFE273162, 0x273F6485, 0x4E7EC90A, 0x9CFD9214, 0xE28A2269, 0x1E654293, 0x3CCA8526, 0x79950A4C, 0xF32A1498, 0x3D252F71, 0x7A4A5EE2, 0xF494BDC4, 0x32587DC9, 0x64B0FB92, 0xC961F724, 0x49B2E809, 0x9365D012, 0xFDBAA665, 0x20044A8B, 0x40089516, 0x80112A2C, 0xDB535219, 0x6DD7A273, 0xDBAF44E6, 0x6C2F8F8D, 0xD85F1F1A, 0x6BCF3875, 0xD79E70EA, 0x744DE795, 0xE89BCF2A, 0x0A469815, 0x148D302A],
  [0xD3C98813, 0x7CE21667, 0xF9C42CCE, 0x28F95FDD, 0x51F2BFBA, 0xA3E57F74, 0x9CBBF8A9, 0xE206F713, 0x1F7CE867, 0x3EF9D0CE, 0x7DF3A19C, 0xFBE74338, 0x2CBF8031, 0x597F0062, 0xB2FE00C4, 0xBE8D07C9, 0xA66B09D3, 0x97A715E7, 0xF43F2D8F, 0x330F5D5F, 0x661EBABE, 0xCC3D757C, 0x430BECB9, 0x8617D972, 0xD75EB4A5, 0x75CC6F0B, 0xEB98DE16, 0x0C40BA6D, 0x188174DA, 0x3102E9B4, 0x6205D368, 0xC40BA6D0],
  [0xF7D6DEB4, 0x34DCBB29, 0x69B97652, 0xD372ECA4, 0x7D94DF09, 0xFB29BE12, 0x2D227A65, 0x5A44F4CA, 0xB489E994, 0xB262D569, 0xBFB4AC93, 0xA4185F67, 0x9341B88F, 0xFDF2775F, 0x2095E8FF, 0x412BD1FE, 0x8257A3FC, 0xDFDE41B9, 0x64CD8533, 0xC99B0A66, 0x4847128D, 0x908E251A, 0xFA6D4C75, 0x2FAB9EAB, 0x5F573D56, 0xBEAE7AAC, 0xA62DF319, 0x972AE073, 0xF524C6A7, 0x31388B0F, 0x6271161E, 0xC4E22C3C]]

/-- For every byte, the power of `x` that it is in the register. -/
def byteLogs : List Nat := [
  0, 31, 30, 376820538, 29, 753641045, 376820537, 1523343524, 28, 1900164031, 753641044, 1492908488,
  376820536, 1688530331, 1523343523, 1130461552, 27, 1507282059, 1900164030, 3666143548, 753641043, 3046687017, 1492908487, 2065350838,
  376820535, 3317045599, 1688530330, 2276984538, 1523343522, 1869728995, 1130461551, 868840989, 26, 1245661496, 1507282058, 3211873824,
  1900164029, 4098525872, 3666143547, 2246549502, 753641042, 1150455624, 3046687016, 3693866106, 1492908486, 2653805045, 2065350837, 558406418,
  376820534, 3016251981, 3317045598, 1884102566, 1688530329, 4042964055, 2276984537, 232593684, 1523343521, 2442171345, 1869728994, 2849180852,
  1130461550, 2901393733, 868840988, 3423507524, 25, 3800328031, 1245661495, 3123467929, 1507282057, 2985816945, 3211873823, 3278214240,
  1900164028, 4255670024, 4098525871, 2818991852, 3666143546, 3226001359, 2246549501, 545421797, 753641041, 3377060631, 1150455623, 3393072488,
  3046687015, 2260923073, 3693866105, 3263237229, 1492908485, 609414191, 2653805044, 2143895474, 2065350836, 2392184482, 558406417, 124817267,
  376820533, 3734723969, 3016251980, 1622482003, 3317045597, 3588694331, 1884102565, 493182175, 1688530328, 2623370009, 4042964054, 275063215,
  2276984536, 627821064, 232593683, 180379084, 1523343520, 935226925, 2442171344, 1188437376, 1869728993, 502715715, 2849180851, 3030625552,
  1130461549, 894519746, 2901393732, 1527276131, 868840987, 4070686613, 3423507523, 3181438788, 24, 3558259295, 3800328030, 1986743270,
  1245661494, 1755937177, 3123467928, 152539825, 1507282056, 3216462925, 2985816944, 1271340253, 3211873822, 1904096638, 3278214239, 1682520285,
  1900164027, 952619949, 4255670023, 1312047432, 4098525870, 1565257883, 2818991851, 244628179, 3666143545, 3407446059, 3226001358, 2557371289,
  2246549500, 3273471261, 545421796, 879536222, 753641040, 77557050, 3377060630, 4111544476, 1150455622, 1999302510, 3393072487, 3844547053,
  3046687014, 870002682, 2260923072, 1006366362, 3693866104, 864084710, 3263237228, 3965514838, 1492908484, 557199591, 609414190, 129769931,
  2653805043, 710608604, 2143895473, 1004641571, 2065350835, 1839593167, 2392184481, 3000190516, 558406416, 651883722, 124817266, 3766588216,
  376820532, 570527457, 3734723968, 4177148538, 3016251979, 3500288436, 1622482002, 1059706553, 3317045596, 3655034747, 3588694330, 405236470,
  1884102564, 2081749911, 493182174, 3362637452, 1688530327, 922242304, 2623370008, 128318888, 4042964053, 3028205241, 275063214, 3602821866,
  2276984535, 2361749446, 627821063, 337523236, 232593682, 3195812359, 180379083, 2673799117, 1523343519, 501637774, 935226924, 514986761,
  2442171343, 3457229953, 1188437375, 2769004989, 1869728992, 440250022, 502715714, 986234698, 2849180850, 2520715981, 3030625551, 916127166,
  1130461548, 3940534411, 894519745, 3753881138, 2901393731, 3769892995, 1527276130, 2595164224, 868840986, 3640057736, 4070686612, 1326902070,
  3423507522, 3756672010, 3181438787, 2637743580]

/-- A table of squares. -/
def squaresOk : List (List (BitVec 32)) → Bool
  | m :: m' :: rest => decide (matrixSquare m = m') && squaresOk (m' :: rest)
  | _ => true

set_option maxRecDepth 100000 in
theorem powerTable_ok : powerTable.head? = some oneZeroBit ∧ squaresOk powerTable = true := by
  constructor
  · decide +kernel
  · decide +kernel

/-- Zero bits by the table. -/
def zerosBy : List (List (BitVec 32)) → BitVec 32 → Nat → BitVec 32
  | [], c, _ => c
  | m :: rest, c, n => zerosBy rest (if n % 2 = 1 then matrixTimes m c else c) (n / 2)

theorem zerosBy_eq : ∀ (t : List (List (BitVec 32))) (m : List (BitVec 32)) (k : Nat) (c : BitVec 32) (n : Nat), Represents m (zeros k) →
    squaresOk (m :: t) = true → n < 2 ^ (t.length + 1) → zerosBy (m :: t) c n = zeros (k * n) c := by
  intro t
  induction t with
  | nil =>
    intro m k c n hm _ hn
    have hn : n < 2 := by simpa using hn
    simp only [zerosBy, hm.times]
    split
    · next h => rw [show n = 1 by omega, Nat.mul_one]
    · next h => rw [show n = 0 by omega, Nat.mul_zero]; rfl
  | cons m' t ih =>
    intro m k c n hm hs hn
    simp only [squaresOk, Bool.and_eq_true, decide_eq_true_eq] at hs
    have hm' := represents_double hm
    rw [hs.1] at hm'
    rw [zerosBy, ih m' (2 * k) _ _ hm' hs.2 (by rw [List.length_cons, Nat.pow_succ] at hn; omega), hm.times, zeros_bit]

theorem zeros_table (c : BitVec 32) {n : Nat} (hn : n < 2 ^ 32) : zeros n c = zerosBy powerTable c n := by
  obtain ⟨h1, h2⟩ := powerTable_ok
  have hl : powerTable.length = 32 := by decide +kernel
  cases ht : powerTable with
  | nil => rw [ht] at hl; cases hl
  | cons m t =>
    rw [ht] at h1 h2 hl
    have : m = oneZeroBit := Option.some.inj h1
    subst this
    rw [zerosBy_eq t _ 1 c n represents_one h2 (by
      simp only [List.length_cons] at hl
      rw [hl]; exact hn), Nat.one_mul]

set_option maxRecDepth 100000 in
theorem byteLogs_check : ((List.range 256).all fun b => b == 0 || (decide ((byteLogs[b]?.getD 0) < 2 ^ 32) && zerosBy powerTable crcOne (byteLogs[b]?.getD 0) == BitVec.ofNat 32 b)) = true := by
  decide +kernel

/-- The power of a byte. -/
def byteLog (b : Nat) : Nat := byteLogs[b]?.getD 0

theorem byteLog_ok {b : Nat} (h0 : b ≠ 0) (hb : b < 256) : zeros (byteLog b) crcOne = BitVec.ofNat 32 b := by
  have h := List.all_eq_true.1 byteLogs_check b (List.mem_range.2 hb)
  simp only [Bool.or_eq_true, beq_iff_eq, Bool.and_eq_true, decide_eq_true_eq] at h
  rcases h with h | ⟨h1, h2⟩
  · exact absurd h h0
  · unfold byteLog
    rw [zeros_table _ h1, h2]

end Rescene
