/-
Tables of `util/crc.c`, copied mechanically from the C source.
-/
namespace RedFs.Crc

/-- `aulCrc32Table` of the Sarwate build, util/crc.c:125-159. -/
def tableSarwate : Array (BitVec 32) := #[
  0x00000000#32, 0x77073096#32, 0xEE0E612C#32, 0x990951BA#32, 0x076DC419#32, 0x706AF48F#32, 0xE963A535#32, 0x9E6495A3#32,
  0x0EDB8832#32, 0x79DCB8A4#32, 0xE0D5E91E#32, 0x97D2D988#32, 0x09B64C2B#32, 0x7EB17CBD#32, 0xE7B82D07#32, 0x90BF1D91#32,
  0x1DB71064#32, 0x6AB020F2#32, 0xF3B97148#32, 0x84BE41DE#32, 0x1ADAD47D#32, 0x6DDDE4EB#32, 0xF4D4B551#32, 0x83D385C7#32,
  0x136C9856#32, 0x646BA8C0#32, 0xFD62F97A#32, 0x8A65C9EC#32, 0x14015C4F#32, 0x63066CD9#32, 0xFA0F3D63#32, 0x8D080DF5#32,
  0x3B6E20C8#32, 0x4C69105E#32, 0xD56041E4#32, 0xA2677172#32, 0x3C03E4D1#32, 0x4B04D447#32, 0xD20D85FD#32, 0xA50AB56B#32,
  0x35B5A8FA#32, 0x42B2986C#32, 0xDBBBC9D6#32, 0xACBCF940#32, 0x32D86CE3#32, 0x45DF5C75#32, 0xDCD60DCF#32, 0xABD13D59#32,
  0x26D930AC#32, 0x51DE003A#32, 0xC8D75180#32, 0xBFD06116#32, 0x21B4F4B5#32, 0x56B3C423#32, 0xCFBA9599#32, 0xB8BDA50F#32,
  0x2802B89E#32, 0x5F058808#32, 0xC60CD9B2#32, 0xB10BE924#32, 0x2F6F7C87#32, 0x58684C11#32, 0xC1611DAB#32, 0xB6662D3D#32,
  0x76DC4190#32, 0x01DB7106#32, 0x98D220BC#32, 0xEFD5102A#32, 0x71B18589#32, 0x06B6B51F#32, 0x9FBFE4A5#32, 0xE8B8D433#32,
  0x7807C9A2#32, 0x0F00F934#32, 0x9609A88E#32, 0xE10E9818#32, 0x7F6A0DBB#32, 0x086D3D2D#32, 0x91646C97#32, 0xE6635C01#32,
  0x6B6B51F4#32, 0x1C6C6162#32, 0x856530D8#32, 0xF262004E#32, 0x6C0695ED#32, 0x1B01A57B#32, 0x8208F4C1#32, 0xF50FC457#32,
  0x65B0D9C6#32, 0x12B7E950#32, 0x8BBEB8EA#32, 0xFCB9887C#32, 0x62DD1DDF#32, 0x15DA2D49#32, 0x8CD37CF3#32, 0xFBD44C65#32,
  0x4DB26158#32, 0x3AB551CE#32, 0xA3BC0074#32, 0xD4BB30E2#32, 0x4ADFA541#32, 0x3DD895D7#32, 0xA4D1C46D#32, 0xD3D6F4FB#32,
  0x4369E96A#32, 0x346ED9FC#32, 0xAD678846#32, 0xDA60B8D0#32, 0x44042D73#32, 0x33031DE5#32, 0xAA0A4C5F#32, 0xDD0D7CC9#32,
  0x5005713C#32, 0x270241AA#32, 0xBE0B1010#32, 0xC90C2086#32, 0x5768B525#32, 0x206F85B3#32, 0xB966D409#32, 0xCE61E49F#32,
  0x5EDEF90E#32, 0x29D9C998#32, 0xB0D09822#32, 0xC7D7A8B4#32, 0x59B33D17#32, 0x2EB40D81#32, 0xB7BD5C3B#32, 0xC0BA6CAD#32,
  0xEDB88320#32, 0x9ABFB3B6#32, 0x03B6E20C#32, 0x74B1D29A#32, 0xEAD54739#32, 0x9DD277AF#32, 0x04DB2615#32, 0x73DC1683#32,
  0xE3630B12#32, 0x94643B84#32, 0x0D6D6A3E#32, 0x7A6A5AA8#32, 0xE40ECF0B#32, 0x9309FF9D#32, 0x0A00AE27#32, 0x7D079EB1#32,
  0xF00F9344#32, 0x8708A3D2#32, 0x1E01F268#32, 0x6906C2FE#32, 0xF762575D#32, 0x806567CB#32, 0x196C3671#32, 0x6E6B06E7#32,
  0xFED41B76#32, 0x89D32BE0#32, 0x10DA7A5A#32, 0x67DD4ACC#32, 0xF9B9DF6F#32, 0x8EBEEFF9#32, 0x17B7BE43#32, 0x60B08ED5#32,
  0xD6D6A3E8#32, 0xA1D1937E#32, 0x38D8C2C4#32, 0x4FDFF252#32, 0xD1BB67F1#32, 0xA6BC5767#32, 0x3FB506DD#32, 0x48B2364B#32,
  0xD80D2BDA#32, 0xAF0A1B4C#32, 0x36034AF6#32, 0x41047A60#32, 0xDF60EFC3#32, 0xA867DF55#32, 0x316E8EEF#32, 0x4669BE79#32,
  0xCB61B38C#32, 0xBC66831A#32, 0x256FD2A0#32, 0x5268E236#32, 0xCC0C7795#32, 0xBB0B4703#32, 0x220216B9#32, 0x5505262F#32,
  0xC5BA3BBE#32, 0xB2BD0B28#32, 0x2BB45A92#32, 0x5CB36A04#32, 0xC2D7FFA7#32, 0xB5D0CF31#32, 0x2CD99E8B#32, 0x5BDEAE1D#32,
  0x9B64C2B0#32, 0xEC63F226#32, 0x756AA39C#32, 0x026D930A#32, 0x9C0906A9#32, 0xEB0E363F#32, 0x72076785#32, 0x05005713#32,
  0x95BF4A82#32, 0xE2B87A14#32, 0x7BB12BAE#32, 0x0CB61B38#32, 0x92D28E9B#32, 0xE5D5BE0D#32, 0x7CDCEFB7#32, 0x0BDBDF21#32,
  0x86D3D2D4#32, 0xF1D4E242#32, 0x68DDB3F8#32, 0x1FDA836E#32, 0x81BE16CD#32, 0xF6B9265B#32, 0x6FB077E1#32, 0x18B74777#32,
  0x88085AE6#32, 0xFF0F6A70#32, 0x66063BCA#32, 0x11010B5C#32, 0x8F659EFF#32, 0xF862AE69#32, 0x616BFFD3#32, 0x166CCF45#32,
  0xA00AE278#32, 0xD70DD2EE#32, 0x4E048354#32, 0x3903B3C2#32, 0xA7672661#32, 0xD06016F7#32, 0x4969474D#32, 0x3E6E77DB#32,
  0xAED16A4A#32, 0xD9D65ADC#32, 0x40DF0B66#32, 0x37D83BF0#32, 0xA9BCAE53#32, 0xDEBB9EC5#32, 0x47B2CF7F#32, 0x30B5FFE9#32,
  0xBDBDF21C#32, 0xCABAC28A#32, 0x53B39330#32, 0x24B4A3A6#32, 0xBAD03605#32, 0xCDD70693#32, 0x54DE5729#32, 0x23D967BF#32,
  0xB3667A2E#32, 0xC4614AB8#32, 0x5D681B02#32, 0x2A6F2B94#32, 0xB40BBE37#32, 0xC30C8EA1#32, 0x5A05DF1B#32, 0x2D02EF8D#32]

set_option maxRecDepth 20000 in
/-- `aulCrc32Table` of the slice-by-8 build, util/crc.c:222-480.  The eight
sub-tables are interleaved: entry `8*x+k` is sub-table `k` at byte `x`. -/
def tableSlice8 : Array (BitVec 32) := #[
  0x00000000#32, 0x00000000#32, 0x00000000#32, 0x00000000#32, 0x00000000#32, 0x00000000#32, 0x00000000#32, 0x00000000#32,
  0x77073096#32, 0x191B3141#32, 0x01C26A37#32, 0xB8BC6765#32, 0x3D6029B0#32, 0xCB5CD3A5#32, 0xA6770BB4#32, 0xCCAA009E#32,
  0xEE0E612C#32, 0x32366282#32, 0x0384D46E#32, 0xAA09C88B#32, 0x7AC05360#32, 0x4DC8A10B#32, 0x979F1129#32, 0x4225077D#32,
  0x990951BA#32, 0x2B2D53C3#32, 0x0246BE59#32, 0x12B5AFEE#32, 0x47A07AD0#32, 0x869472AE#32, 0x31E81A9D#32, 0x8E8F07E3#32,
  0x076DC419#32, 0x646CC504#32, 0x0709A8DC#32, 0x8F629757#32, 0xF580A6C0#32, 0x9B914216#32, 0xF44F2413#32, 0x844A0EFA#32,
  0x706AF48F#32, 0x7D77F445#32, 0x06CBC2EB#32, 0x37DEF032#32, 0xC8E08F70#32, 0x50CD91B3#32, 0x52382FA7#32, 0x48E00E64#32,
  0xE963A535#32, 0x565AA786#32, 0x048D7CB2#32, 0x256B5FDC#32, 0x8F40F5A0#32, 0xD659E31D#32, 0x63D0353A#32, 0xC66F0987#32,
  0x9E6495A3#32, 0x4F4196C7#32, 0x054F1685#32, 0x9DD738B9#32, 0xB220DC10#32, 0x1D0530B8#32, 0xC5A73E8E#32, 0x0AC50919#32,
  0x0EDB8832#32, 0xC8D98A08#32, 0x0E1351B8#32, 0xC5B428EF#32, 0x30704BC1#32, 0xEC53826D#32, 0x33EF4E67#32, 0xD3E51BB5#32,
  0x79DCB8A4#32, 0xD1C2BB49#32, 0x0FD13B8F#32, 0x7D084F8A#32, 0x0D106271#32, 0x270F51C8#32, 0x959845D3#32, 0x1F4F1B2B#32,
  0xE0D5E91E#32, 0xFAEFE88A#32, 0x0D9785D6#32, 0x6FBDE064#32, 0x4AB018A1#32, 0xA19B2366#32, 0xA4705F4E#32, 0x91C01CC8#32,
  0x97D2D988#32, 0xE3F4D9CB#32, 0x0C55EFE1#32, 0xD7018701#32, 0x77D03111#32, 0x6AC7F0C3#32, 0x020754FA#32, 0x5D6A1C56#32,
  0x09B64C2B#32, 0xACB54F0C#32, 0x091AF964#32, 0x4AD6BFB8#32, 0xC5F0ED01#32, 0x77C2C07B#32, 0xC7A06A74#32, 0x57AF154F#32,
  0x7EB17CBD#32, 0xB5AE7E4D#32, 0x08D89353#32, 0xF26AD8DD#32, 0xF890C4B1#32, 0xBC9E13DE#32, 0x61D761C0#32, 0x9B0515D1#32,
  0xE7B82D07#32, 0x9E832D8E#32, 0x0A9E2D0A#32, 0xE0DF7733#32, 0xBF30BE61#32, 0x3A0A6170#32, 0x503F7B5D#32, 0x158A1232#32,
  0x90BF1D91#32, 0x87981CCF#32, 0x0B5C473D#32, 0x58631056#32, 0x825097D1#32, 0xF156B2D5#32, 0xF64870E9#32, 0xD92012AC#32,
  0x1DB71064#32, 0x4AC21251#32, 0x1C26A370#32, 0x5019579F#32, 0x60E09782#32, 0x03D6029B#32, 0x67DE9CCE#32, 0x7CBB312B#32,
  0x6AB020F2#32, 0x53D92310#32, 0x1DE4C947#32, 0xE8A530FA#32, 0x5D80BE32#32, 0xC88AD13E#32, 0xC1A9977A#32, 0xB01131B5#32,
  0xF3B97148#32, 0x78F470D3#32, 0x1FA2771E#32, 0xFA109F14#32, 0x1A20C4E2#32, 0x4E1EA390#32, 0xF0418DE7#32, 0x3E9E3656#32,
  0x84BE41DE#32, 0x61EF4192#32, 0x1E601D29#32, 0x42ACF871#32, 0x2740ED52#32, 0x85427035#32, 0x56368653#32, 0xF23436C8#32,
  0x1ADAD47D#32, 0x2EAED755#32, 0x1B2F0BAC#32, 0xDF7BC0C8#32, 0x95603142#32, 0x9847408D#32, 0x9391B8DD#32, 0xF8F13FD1#32,
  0x6DDDE4EB#32, 0x37B5E614#32, 0x1AED619B#32, 0x67C7A7AD#32, 0xA80018F2#32, 0x531B9328#32, 0x35E6B369#32, 0x345B3F4F#32,
  0xF4D4B551#32, 0x1C98B5D7#32, 0x18ABDFC2#32, 0x75720843#32, 0xEFA06222#32, 0xD58FE186#32, 0x040EA9F4#32, 0xBAD438AC#32,
  0x83D385C7#32, 0x05838496#32, 0x1969B5F5#32, 0xCDCE6F26#32, 0xD2C04B92#32, 0x1ED33223#32, 0xA279A240#32, 0x767E3832#32,
  0x136C9856#32, 0x821B9859#32, 0x1235F2C8#32, 0x95AD7F70#32, 0x5090DC43#32, 0xEF8580F6#32, 0x5431D2A9#32, 0xAF5E2A9E#32,
  0x646BA8C0#32, 0x9B00A918#32, 0x13F798FF#32, 0x2D111815#32, 0x6DF0F5F3#32, 0x24D95353#32, 0xF246D91D#32, 0x63F42A00#32,
  0xFD62F97A#32, 0xB02DFADB#32, 0x11B126A6#32, 0x3FA4B7FB#32, 0x2A508F23#32, 0xA24D21FD#32, 0xC3AEC380#32, 0xED7B2DE3#32,
  0x8A65C9EC#32, 0xA936CB9A#32, 0x10734C91#32, 0x8718D09E#32, 0x1730A693#32, 0x6911F258#32, 0x65D9C834#32, 0x21D12D7D#32,
  0x14015C4F#32, 0xE6775D5D#32, 0x153C5A14#32, 0x1ACFE827#32, 0xA5107A83#32, 0x7414C2E0#32, 0xA07EF6BA#32, 0x2B142464#32,
  0x63066CD9#32, 0xFF6C6C1C#32, 0x14FE3023#32, 0xA2738F42#32, 0x98705333#32, 0xBF481145#32, 0x0609FD0E#32, 0xE7BE24FA#32,
  0xFA0F3D63#32, 0xD4413FDF#32, 0x16B88E7A#32, 0xB0C620AC#32, 0xDFD029E3#32, 0x39DC63EB#32, 0x37E1E793#32, 0x69312319#32,
  0x8D080DF5#32, 0xCD5A0E9E#32, 0x177AE44D#32, 0x087A47C9#32, 0xE2B00053#32, 0xF280B04E#32, 0x9196EC27#32, 0xA59B2387#32,
  0x3B6E20C8#32, 0x958424A2#32, 0x384D46E0#32, 0xA032AF3E#32, 0xC1C12F04#32, 0x07AC0536#32, 0xCFBD399C#32, 0xF9766256#32,
  0x4C69105E#32, 0x8C9F15E3#32, 0x398F2CD7#32, 0x188EC85B#32, 0xFCA106B4#32, 0xCCF0D693#32, 0x69CA3228#32, 0x35DC62C8#32,
  0xD56041E4#32, 0xA7B24620#32, 0x3BC9928E#32, 0x0A3B67B5#32, 0xBB017C64#32, 0x4A64A43D#32, 0x582228B5#32, 0xBB53652B#32,
  0xA2677172#32, 0xBEA97761#32, 0x3A0BF8B9#32, 0xB28700D0#32, 0x866155D4#32, 0x81387798#32, 0xFE552301#32, 0x77F965B5#32,
  0x3C03E4D1#32, 0xF1E8E1A6#32, 0x3F44EE3C#32, 0x2F503869#32, 0x344189C4#32, 0x9C3D4720#32, 0x3BF21D8F#32, 0x7D3C6CAC#32,
  0x4B04D447#32, 0xE8F3D0E7#32, 0x3E86840B#32, 0x97EC5F0C#32, 0x0921A074#32, 0x57619485#32, 0x9D85163B#32, 0xB1966C32#32,
  0xD20D85FD#32, 0xC3DE8324#32, 0x3CC03A52#32, 0x8559F0E2#32, 0x4E81DAA4#32, 0xD1F5E62B#32, 0xAC6D0CA6#32, 0x3F196BD1#32,
  0xA50AB56B#32, 0xDAC5B265#32, 0x3D025065#32, 0x3DE59787#32, 0x73E1F314#32, 0x1AA9358E#32, 0x0A1A0712#32, 0xF3B36B4F#32,
  0x35B5A8FA#32, 0x5D5DAEAA#32, 0x365E1758#32, 0x658687D1#32, 0xF1B164C5#32, 0xEBFF875B#32, 0xFC5277FB#32, 0x2A9379E3#32,
  0x42B2986C#32, 0x44469FEB#32, 0x379C7D6F#32, 0xDD3AE0B4#32, 0xCCD14D75#32, 0x20A354FE#32, 0x5A257C4F#32, 0xE639797D#32,
  0xDBBBC9D6#32, 0x6F6BCC28#32, 0x35DAC336#32, 0xCF8F4F5A#32, 0x8B7137A5#32, 0xA6372650#32, 0x6BCD66D2#32, 0x68B67E9E#32,
  0xACBCF940#32, 0x7670FD69#32, 0x3418A901#32, 0x7733283F#32, 0xB6111E15#32, 0x6D6BF5F5#32, 0xCDBA6D66#32, 0xA41C7E00#32,
  0x32D86CE3#32, 0x39316BAE#32, 0x3157BF84#32, 0xEAE41086#32, 0x0431C205#32, 0x706EC54D#32, 0x081D53E8#32, 0xAED97719#32,
  0x45DF5C75#32, 0x202A5AEF#32, 0x3095D5B3#32, 0x525877E3#32, 0x3951EBB5#32, 0xBB3216E8#32, 0xAE6A585C#32, 0x62737787#32,
  0xDCD60DCF#32, 0x0B07092C#32, 0x32D36BEA#32, 0x40EDD80D#32, 0x7EF19165#32, 0x3DA66446#32, 0x9F8242C1#32, 0xECFC7064#32,
  0xABD13D59#32, 0x121C386D#32, 0x331101DD#32, 0xF851BF68#32, 0x4391B8D5#32, 0xF6FAB7E3#32, 0x39F54975#32, 0x205670FA#32,
  0x26D930AC#32, 0xDF4636F3#32, 0x246BE590#32, 0xF02BF8A1#32, 0xA121B886#32, 0x047A07AD#32, 0xA863A552#32, 0x85CD537D#32,
  0x51DE003A#32, 0xC65D07B2#32, 0x25A98FA7#32, 0x48979FC4#32, 0x9C419136#32, 0xCF26D408#32, 0x0E14AEE6#32, 0x496753E3#32,
  0xC8D75180#32, 0xED705471#32, 0x27EF31FE#32, 0x5A22302A#32, 0xDBE1EBE6#32, 0x49B2A6A6#32, 0x3FFCB47B#32, 0xC7E85400#32,
  0xBFD06116#32, 0xF46B6530#32, 0x262D5BC9#32, 0xE29E574F#32, 0xE681C256#32, 0x82EE7503#32, 0x998BBFCF#32, 0x0B42549E#32,
  0x21B4F4B5#32, 0xBB2AF3F7#32, 0x23624D4C#32, 0x7F496FF6#32, 0x54A11E46#32, 0x9FEB45BB#32, 0x5C2C8141#32, 0x01875D87#32,
  0x56B3C423#32, 0xA231C2B6#32, 0x22A0277B#32, 0xC7F50893#32, 0x69C137F6#32, 0x54B7961E#32, 0xFA5B8AF5#32, 0xCD2D5D19#32,
  0xCFBA9599#32, 0x891C9175#32, 0x20E69922#32, 0xD540A77D#32, 0x2E614D26#32, 0xD223E4B0#32, 0xCBB39068#32, 0x43A25AFA#32,
  0xB8BDA50F#32, 0x9007A034#32, 0x2124F315#32, 0x6DFCC018#32, 0x13016496#32, 0x197F3715#32, 0x6DC49BDC#32, 0x8F085A64#32,
  0x2802B89E#32, 0x179FBCFB#32, 0x2A78B428#32, 0x359FD04E#32, 0x9151F347#32, 0xE82985C0#32, 0x9B8CEB35#32, 0x562848C8#32,
  0x5F058808#32, 0x0E848DBA#32, 0x2BBADE1F#32, 0x8D23B72B#32, 0xAC31DAF7#32, 0x23755665#32, 0x3DFBE081#32, 0x9A824856#32,
  0xC60CD9B2#32, 0x25A9DE79#32, 0x29FC6046#32, 0x9F9618C5#32, 0xEB91A027#32, 0xA5E124CB#32, 0x0C13FA1C#32, 0x140D4FB5#32,
  0xB10BE924#32, 0x3CB2EF38#32, 0x283E0A71#32, 0x272A7FA0#32, 0xD6F18997#32, 0x6EBDF76E#32, 0xAA64F1A8#32, 0xD8A74F2B#32,
  0x2F6F7C87#32, 0x73F379FF#32, 0x2D711CF4#32, 0xBAFD4719#32, 0x64D15587#32, 0x73B8C7D6#32, 0x6FC3CF26#32, 0xD2624632#32,
  0x58684C11#32, 0x6AE848BE#32, 0x2CB376C3#32, 0x0241207C#32, 0x59B17C37#32, 0xB8E41473#32, 0xC9B4C492#32, 0x1EC846AC#32,
  0xC1611DAB#32, 0x41C51B7D#32, 0x2EF5C89A#32, 0x10F48F92#32, 0x1E1106E7#32, 0x3E7066DD#32, 0xF85CDE0F#32, 0x9047414F#32,
  0xB6662D3D#32, 0x58DE2A3C#32, 0x2F37A2AD#32, 0xA848E8F7#32, 0x23712F57#32, 0xF52CB578#32, 0x5E2BD5BB#32, 0x5CED41D1#32,
  0x76DC4190#32, 0xF0794F05#32, 0x709A8DC0#32, 0x9B14583D#32, 0x58F35849#32, 0x0F580A6C#32, 0x440B7579#32, 0x299DC2ED#32,
  0x01DB7106#32, 0xE9627E44#32, 0x7158E7F7#32, 0x23A83F58#32, 0x659371F9#32, 0xC404D9C9#32, 0xE27C7ECD#32, 0xE537C273#32,
  0x98D220BC#32, 0xC24F2D87#32, 0x731E59AE#32, 0x311D90B6#32, 0x22330B29#32, 0x4290AB67#32, 0xD3946450#32, 0x6BB8C590#32,
  0xEFD5102A#32, 0xDB541CC6#32, 0x72DC3399#32, 0x89A1F7D3#32, 0x1F532299#32, 0x89CC78C2#32, 0x75E36FE4#32, 0xA712C50E#32,
  0x71B18589#32, 0x94158A01#32, 0x7793251C#32, 0x1476CF6A#32, 0xAD73FE89#32, 0x94C9487A#32, 0xB044516A#32, 0xADD7CC17#32,
  0x06B6B51F#32, 0x8D0EBB40#32, 0x76514F2B#32, 0xACCAA80F#32, 0x9013D739#32, 0x5F959BDF#32, 0x16335ADE#32, 0x617DCC89#32,
  0x9FBFE4A5#32, 0xA623E883#32, 0x7417F172#32, 0xBE7F07E1#32, 0xD7B3ADE9#32, 0xD901E971#32, 0x27DB4043#32, 0xEFF2CB6A#32,
  0xE8B8D433#32, 0xBF38D9C2#32, 0x75D59B45#32, 0x06C36084#32, 0xEAD38459#32, 0x125D3AD4#32, 0x81AC4BF7#32, 0x2358CBF4#32,
  0x7807C9A2#32, 0x38A0C50D#32, 0x7E89DC78#32, 0x5EA070D2#32, 0x68831388#32, 0xE30B8801#32, 0x77E43B1E#32, 0xFA78D958#32,
  0x0F00F934#32, 0x21BBF44C#32, 0x7F4BB64F#32, 0xE61C17B7#32, 0x55E33A38#32, 0x28575BA4#32, 0xD19330AA#32, 0x36D2D9C6#32,
  0x9609A88E#32, 0x0A96A78F#32, 0x7D0D0816#32, 0xF4A9B859#32, 0x124340E8#32, 0xAEC3290A#32, 0xE07B2A37#32, 0xB85DDE25#32,
  0xE10E9818#32, 0x138D96CE#32, 0x7CCF6221#32, 0x4C15DF3C#32, 0x2F236958#32, 0x659FFAAF#32, 0x460C2183#32, 0x74F7DEBB#32,
  0x7F6A0DBB#32, 0x5CCC0009#32, 0x798074A4#32, 0xD1C2E785#32, 0x9D03B548#32, 0x789ACA17#32, 0x83AB1F0D#32, 0x7E32D7A2#32,
  0x086D3D2D#32, 0x45D73148#32, 0x78421E93#32, 0x697E80E0#32, 0xA0639CF8#32, 0xB3C619B2#32, 0x25DC14B9#32, 0xB298D73C#32,
  0x91646C97#32, 0x6EFA628B#32, 0x7A04A0CA#32, 0x7BCB2F0E#32, 0xE7C3E628#32, 0x35526B1C#32, 0x14340E24#32, 0x3C17D0DF#32,
  0xE6635C01#32, 0x77E153CA#32, 0x7BC6CAFD#32, 0xC377486B#32, 0xDAA3CF98#32, 0xFE0EB8B9#32, 0xB2430590#32, 0xF0BDD041#32,
  0x6B6B51F4#32, 0xBABB5D54#32, 0x6CBC2EB0#32, 0xCB0D0FA2#32, 0x3813CFCB#32, 0x0C8E08F7#32, 0x23D5E9B7#32, 0x5526F3C6#32,
  0x1C6C6162#32, 0xA3A06C15#32, 0x6D7E4487#32, 0x73B168C7#32, 0x0573E67B#32, 0xC7D2DB52#32, 0x85A2E203#32, 0x998CF358#32,
  0x856530D8#32, 0x888D3FD6#32, 0x6F38FADE#32, 0x6104C729#32, 0x42D39CAB#32, 0x4146A9FC#32, 0xB44AF89E#32, 0x1703F4BB#32,
  0xF262004E#32, 0x91960E97#32, 0x6EFA90E9#32, 0xD9B8A04C#32, 0x7FB3B51B#32, 0x8A1A7A59#32, 0x123DF32A#32, 0xDBA9F425#32,
  0x6C0695ED#32, 0xDED79850#32, 0x6BB5866C#32, 0x446F98F5#32, 0xCD93690B#32, 0x971F4AE1#32, 0xD79ACDA4#32, 0xD16CFD3C#32,
  0x1B01A57B#32, 0xC7CCA911#32, 0x6A77EC5B#32, 0xFCD3FF90#32, 0xF0F340BB#32, 0x5C439944#32, 0x71EDC610#32, 0x1DC6FDA2#32,
  0x8208F4C1#32, 0xECE1FAD2#32, 0x68315202#32, 0xEE66507E#32, 0xB7533A6B#32, 0xDAD7EBEA#32, 0x4005DC8D#32, 0x9349FA41#32,
  0xF50FC457#32, 0xF5FACB93#32, 0x69F33835#32, 0x56DA371B#32, 0x8A3313DB#32, 0x118B384F#32, 0xE672D739#32, 0x5FE3FADF#32,
  0x65B0D9C6#32, 0x7262D75C#32, 0x62AF7F08#32, 0x0EB9274D#32, 0x0863840A#32, 0xE0DD8A9A#32, 0x103AA7D0#32, 0x86C3E873#32,
  0x12B7E950#32, 0x6B79E61D#32, 0x636D153F#32, 0xB6054028#32, 0x3503ADBA#32, 0x2B81593F#32, 0xB64DAC64#32, 0x4A69E8ED#32,
  0x8BBEB8EA#32, 0x4054B5DE#32, 0x612BAB66#32, 0xA4B0EFC6#32, 0x72A3D76A#32, 0xAD152B91#32, 0x87A5B6F9#32, 0xC4E6EF0E#32,
  0xFCB9887C#32, 0x594F849F#32, 0x60E9C151#32, 0x1C0C88A3#32, 0x4FC3FEDA#32, 0x6649F834#32, 0x21D2BD4D#32, 0x084CEF90#32,
  0x62DD1DDF#32, 0x160E1258#32, 0x65A6D7D4#32, 0x81DBB01A#32, 0xFDE322CA#32, 0x7B4CC88C#32, 0xE47583C3#32, 0x0289E689#32,
  0x15DA2D49#32, 0x0F152319#32, 0x6464BDE3#32, 0x3967D77F#32, 0xC0830B7A#32, 0xB0101B29#32, 0x42028877#32, 0xCE23E617#32,
  0x8CD37CF3#32, 0x243870DA#32, 0x662203BA#32, 0x2BD27891#32, 0x872371AA#32, 0x36846987#32, 0x73EA92EA#32, 0x40ACE1F4#32,
  0xFBD44C65#32, 0x3D23419B#32, 0x67E0698D#32, 0x936E1FF4#32, 0xBA43581A#32, 0xFDD8BA22#32, 0xD59D995E#32, 0x8C06E16A#32,
  0x4DB26158#32, 0x65FD6BA7#32, 0x48D7CB20#32, 0x3B26F703#32, 0x9932774D#32, 0x08F40F5A#32, 0x8BB64CE5#32, 0xD0EBA0BB#32,
  0x3AB551CE#32, 0x7CE65AE6#32, 0x4915A117#32, 0x839A9066#32, 0xA4525EFD#32, 0xC3A8DCFF#32, 0x2DC14751#32, 0x1C41A025#32,
  0xA3BC0074#32, 0x57CB0925#32, 0x4B531F4E#32, 0x912F3F88#32, 0xE3F2242D#32, 0x453CAE51#32, 0x1C295DCC#32, 0x92CEA7C6#32,
  0xD4BB30E2#32, 0x4ED03864#32, 0x4A917579#32, 0x299358ED#32, 0xDE920D9D#32, 0x8E607DF4#32, 0xBA5E5678#32, 0x5E64A758#32,
  0x4ADFA541#32, 0x0191AEA3#32, 0x4FDE63FC#32, 0xB4446054#32, 0x6CB2D18D#32, 0x93654D4C#32, 0x7FF968F6#32, 0x54A1AE41#32,
  0x3DD895D7#32, 0x188A9FE2#32, 0x4E1C09CB#32, 0x0CF80731#32, 0x51D2F83D#32, 0x58399EE9#32, 0xD98E6342#32, 0x980BAEDF#32,
  0xA4D1C46D#32, 0x33A7CC21#32, 0x4C5AB792#32, 0x1E4DA8DF#32, 0x167282ED#32, 0xDEADEC47#32, 0xE86679DF#32, 0x1684A93C#32,
  0xD3D6F4FB#32, 0x2ABCFD60#32, 0x4D98DDA5#32, 0xA6F1CFBA#32, 0x2B12AB5D#32, 0x15F13FE2#32, 0x4E11726B#32, 0xDA2EA9A2#32,
  0x4369E96A#32, 0xAD24E1AF#32, 0x46C49A98#32, 0xFE92DFEC#32, 0xA9423C8C#32, 0xE4A78D37#32, 0xB8590282#32, 0x030EBB0E#32,
  0x346ED9FC#32, 0xB43FD0EE#32, 0x4706F0AF#32, 0x462EB889#32, 0x9422153C#32, 0x2FFB5E92#32, 0x1E2E0936#32, 0xCFA4BB90#32,
  0xAD678846#32, 0x9F12832D#32, 0x45404EF6#32, 0x549B1767#32, 0xD3826FEC#32, 0xA96F2C3C#32, 0x2FC613AB#32, 0x412BBC73#32,
  0xDA60B8D0#32, 0x8609B26C#32, 0x448224C1#32, 0xEC277002#32, 0xEEE2465C#32, 0x6233FF99#32, 0x89B1181F#32, 0x8D81BCED#32,
  0x44042D73#32, 0xC94824AB#32, 0x41CD3244#32, 0x71F048BB#32, 0x5CC29A4C#32, 0x7F36CF21#32, 0x4C162691#32, 0x8744B5F4#32,
  0x33031DE5#32, 0xD05315EA#32, 0x400F5873#32, 0xC94C2FDE#32, 0x61A2B3FC#32, 0xB46A1C84#32, 0xEA612D25#32, 0x4BEEB56A#32,
  0xAA0A4C5F#32, 0xFB7E4629#32, 0x4249E62A#32, 0xDBF98030#32, 0x2602C92C#32, 0x32FE6E2A#32, 0xDB8937B8#32, 0xC561B289#32,
  0xDD0D7CC9#32, 0xE2657768#32, 0x438B8C1D#32, 0x6345E755#32, 0x1B62E09C#32, 0xF9A2BD8F#32, 0x7DFE3C0C#32, 0x09CBB217#32,
  0x5005713C#32, 0x2F3F79F6#32, 0x54F16850#32, 0x6B3FA09C#32, 0xF9D2E0CF#32, 0x0B220DC1#32, 0xEC68D02B#32, 0xAC509190#32,
  0x270241AA#32, 0x362448B7#32, 0x55330267#32, 0xD383C7F9#32, 0xC4B2C97F#32, 0xC07EDE64#32, 0x4A1FDB9F#32, 0x60FA910E#32,
  0xBE0B1010#32, 0x1D091B74#32, 0x5775BC3E#32, 0xC1366817#32, 0x8312B3AF#32, 0x46EAACCA#32, 0x7BF7C102#32, 0xEE7596ED#32,
  0xC90C2086#32, 0x04122A35#32, 0x56B7D609#32, 0x798A0F72#32, 0xBE729A1F#32, 0x8DB67F6F#32, 0xDD80CAB6#32, 0x22DF9673#32,
  0x5768B525#32, 0x4B53BCF2#32, 0x53F8C08C#32, 0xE45D37CB#32, 0x0C52460F#32, 0x90B34FD7#32, 0x1827F438#32, 0x281A9F6A#32,
  0x206F85B3#32, 0x52488DB3#32, 0x523AAABB#32, 0x5CE150AE#32, 0x31326FBF#32, 0x5BEF9C72#32, 0xBE50FF8C#32, 0xE4B09FF4#32,
  0xB966D409#32, 0x7965DE70#32, 0x507C14E2#32, 0x4E54FF40#32, 0x7692156F#32, 0xDD7BEEDC#32, 0x8FB8E511#32, 0x6A3F9817#32,
  0xCE61E49F#32, 0x607EEF31#32, 0x51BE7ED5#32, 0xF6E89825#32, 0x4BF23CDF#32, 0x16273D79#32, 0x29CFEEA5#32, 0xA6959889#32,
  0x5EDEF90E#32, 0xE7E6F3FE#32, 0x5AE239E8#32, 0xAE8B8873#32, 0xC9A2AB0E#32, 0xE7718FAC#32, 0xDF879E4C#32, 0x7FB58A25#32,
  0x29D9C998#32, 0xFEFDC2BF#32, 0x5B2053DF#32, 0x1637EF16#32, 0xF4C282BE#32, 0x2C2D5C09#32, 0x79F095F8#32, 0xB31F8ABB#32,
  0xB0D09822#32, 0xD5D0917C#32, 0x5966ED86#32, 0x048240F8#32, 0xB362F86E#32, 0xAAB92EA7#32, 0x48188F65#32, 0x3D908D58#32,
  0xC7D7A8B4#32, 0xCCCBA03D#32, 0x58A487B1#32, 0xBC3E279D#32, 0x8E02D1DE#32, 0x61E5FD02#32, 0xEE6F84D1#32, 0xF13A8DC6#32,
  0x59B33D17#32, 0x838A36FA#32, 0x5DEB9134#32, 0x21E91F24#32, 0x3C220DCE#32, 0x7CE0CDBA#32, 0x2BC8BA5F#32, 0xFBFF84DF#32,
  0x2EB40D81#32, 0x9A9107BB#32, 0x5C29FB03#32, 0x99557841#32, 0x0142247E#32, 0xB7BC1E1F#32, 0x8DBFB1EB#32, 0x37558441#32,
  0xB7BD5C3B#32, 0xB1BC5478#32, 0x5E6F455A#32, 0x8BE0D7AF#32, 0x46E25EAE#32, 0x31286CB1#32, 0xBC57AB76#32, 0xB9DA83A2#32,
  0xC0BA6CAD#32, 0xA8A76539#32, 0x5FAD2F6D#32, 0x335CB0CA#32, 0x7B82771E#32, 0xFA74BF14#32, 0x1A20A0C2#32, 0x7570833C#32,
  0xEDB88320#32, 0x3B83984B#32, 0xE1351B80#32, 0xED59B63B#32, 0xB1E6B092#32, 0x1EB014D8#32, 0x8816EAF2#32, 0x533B85DA#32,
  0x9ABFB3B6#32, 0x2298A90A#32, 0xE0F771B7#32, 0x55E5D15E#32, 0x8C869922#32, 0xD5ECC77D#32, 0x2E61E146#32, 0x9F918544#32,
  0x03B6E20C#32, 0x09B5FAC9#32, 0xE2B1CFEE#32, 0x47507EB0#32, 0xCB26E3F2#32, 0x5378B5D3#32, 0x1F89FBDB#32, 0x111E82A7#32,
  0x74B1D29A#32, 0x10AECB88#32, 0xE373A5D9#32, 0xFFEC19D5#32, 0xF646CA42#32, 0x98246676#32, 0xB9FEF06F#32, 0xDDB48239#32,
  0xEAD54739#32, 0x5FEF5D4F#32, 0xE63CB35C#32, 0x623B216C#32, 0x44661652#32, 0x852156CE#32, 0x7C59CEE1#32, 0xD7718B20#32,
  0x9DD277AF#32, 0x46F46C0E#32, 0xE7FED96B#32, 0xDA874609#32, 0x79063FE2#32, 0x4E7D856B#32, 0xDA2EC555#32, 0x1BDB8BBE#32,
  0x04DB2615#32, 0x6DD93FCD#32, 0xE5B86732#32, 0xC832E9E7#32, 0x3EA64532#32, 0xC8E9F7C5#32, 0xEBC6DFC8#32, 0x95548C5D#32,
  0x73DC1683#32, 0x74C20E8C#32, 0xE47A0D05#32, 0x708E8E82#32, 0x03C66C82#32, 0x03B52460#32, 0x4DB1D47C#32, 0x59FE8CC3#32,
  0xE3630B12#32, 0xF35A1243#32, 0xEF264A38#32, 0x28ED9ED4#32, 0x8196FB53#32, 0xF2E396B5#32, 0xBBF9A495#32, 0x80DE9E6F#32,
  0x94643B84#32, 0xEA412302#32, 0xEEE4200F#32, 0x9051F9B1#32, 0xBCF6D2E3#32, 0x39BF4510#32, 0x1D8EAF21#32, 0x4C749EF1#32,
  0x0D6D6A3E#32, 0xC16C70C1#32, 0xECA29E56#32, 0x82E4565F#32, 0xFB56A833#32, 0xBF2B37BE#32, 0x2C66B5BC#32, 0xC2FB9912#32,
  0x7A6A5AA8#32, 0xD8774180#32, 0xED60F461#32, 0x3A58313A#32, 0xC6368183#32, 0x7477E41B#32, 0x8A11BE08#32, 0x0E51998C#32,
  0xE40ECF0B#32, 0x9736D747#32, 0xE82FE2E4#32, 0xA78F0983#32, 0x74165D93#32, 0x6972D4A3#32, 0x4FB68086#32, 0x04949095#32,
  0x9309FF9D#32, 0x8E2DE606#32, 0xE9ED88D3#32, 0x1F336EE6#32, 0x49767423#32, 0xA22E0706#32, 0xE9C18B32#32, 0xC83E900B#32,
  0x0A00AE27#32, 0xA500B5C5#32, 0xEBAB368A#32, 0x0D86C108#32, 0x0ED60EF3#32, 0x24BA75A8#32, 0xD82991AF#32, 0x46B197E8#32,
  0x7D079EB1#32, 0xBC1B8484#32, 0xEA695CBD#32, 0xB53AA66D#32, 0x33B62743#32, 0xEFE6A60D#32, 0x7E5E9A1B#32, 0x8A1B9776#32,
  0xF00F9344#32, 0x71418A1A#32, 0xFD13B8F0#32, 0xBD40E1A4#32, 0xD1062710#32, 0x1D661643#32, 0xEFC8763C#32, 0x2F80B4F1#32,
  0x8708A3D2#32, 0x685ABB5B#32, 0xFCD1D2C7#32, 0x05FC86C1#32, 0xEC660EA0#32, 0xD63AC5E6#32, 0x49BF7D88#32, 0xE32AB46F#32,
  0x1E01F268#32, 0x4377E898#32, 0xFE976C9E#32, 0x1749292F#32, 0xABC67470#32, 0x50AEB748#32, 0x78576715#32, 0x6DA5B38C#32,
  0x6906C2FE#32, 0x5A6CD9D9#32, 0xFF5506A9#32, 0xAFF54E4A#32, 0x96A65DC0#32, 0x9BF264ED#32, 0xDE206CA1#32, 0xA10FB312#32,
  0xF762575D#32, 0x152D4F1E#32, 0xFA1A102C#32, 0x322276F3#32, 0x248681D0#32, 0x86F75455#32, 0x1B87522F#32, 0xABCABA0B#32,
  0x806567CB#32, 0x0C367E5F#32, 0xFBD87A1B#32, 0x8A9E1196#32, 0x19E6A860#32, 0x4DAB87F0#32, 0xBDF0599B#32, 0x6760BA95#32,
  0x196C3671#32, 0x271B2D9C#32, 0xF99EC442#32, 0x982BBE78#32, 0x5E46D2B0#32, 0xCB3FF55E#32, 0x8C184306#32, 0xE9EFBD76#32,
  0x6E6B06E7#32, 0x3E001CDD#32, 0xF85CAE75#32, 0x2097D91D#32, 0x6326FB00#32, 0x006326FB#32, 0x2A6F48B2#32, 0x2545BDE8#32,
  0xFED41B76#32, 0xB9980012#32, 0xF300E948#32, 0x78F4C94B#32, 0xE1766CD1#32, 0xF135942E#32, 0xDC27385B#32, 0xFC65AF44#32,
  0x89D32BE0#32, 0xA0833153#32, 0xF2C2837F#32, 0xC048AE2E#32, 0xDC164561#32, 0x3A69478B#32, 0x7A5033EF#32, 0x30CFAFDA#32,
  0x10DA7A5A#32, 0x8BAE6290#32, 0xF0843D26#32, 0xD2FD01C0#32, 0x9BB63FB1#32, 0xBCFD3525#32, 0x4BB82972#32, 0xBE40A839#32,
  0x67DD4ACC#32, 0x92B553D1#32, 0xF1465711#32, 0x6A4166A5#32, 0xA6D61601#32, 0x77A1E680#32, 0xEDCF22C6#32, 0x72EAA8A7#32,
  0xF9B9DF6F#32, 0xDDF4C516#32, 0xF4094194#32, 0xF7965E1C#32, 0x14F6CA11#32, 0x6AA4D638#32, 0x28681C48#32, 0x782FA1BE#32,
  0x8EBEEFF9#32, 0xC4EFF457#32, 0xF5CB2BA3#32, 0x4F2A3979#32, 0x2996E3A1#32, 0xA1F8059D#32, 0x8E1F17FC#32, 0xB485A120#32,
  0x17B7BE43#32, 0xEFC2A794#32, 0xF78D95FA#32, 0x5D9F9697#32, 0x6E369971#32, 0x276C7733#32, 0xBFF70D61#32, 0x3A0AA6C3#32,
  0x60B08ED5#32, 0xF6D996D5#32, 0xF64FFFCD#32, 0xE523F1F2#32, 0x5356B0C1#32, 0xEC30A496#32, 0x198006D5#32, 0xF6A0A65D#32,
  0xD6D6A3E8#32, 0xAE07BCE9#32, 0xD9785D60#32, 0x4D6B1905#32, 0x70279F96#32, 0x191C11EE#32, 0x47ABD36E#32, 0xAA4DE78C#32,
  0xA1D1937E#32, 0xB71C8DA8#32, 0xD8BA3757#32, 0xF5D77E60#32, 0x4D47B626#32, 0xD240C24B#32, 0xE1DCD8DA#32, 0x66E7E712#32,
  0x38D8C2C4#32, 0x9C31DE6B#32, 0xDAFC890E#32, 0xE762D18E#32, 0x0AE7CCF6#32, 0x54D4B0E5#32, 0xD034C247#32, 0xE868E0F1#32,
  0x4FDFF252#32, 0x852AEF2A#32, 0xDB3EE339#32, 0x5FDEB6EB#32, 0x3787E546#32, 0x9F886340#32, 0x7643C9F3#32, 0x24C2E06F#32,
  0xD1BB67F1#32, 0xCA6B79ED#32, 0xDE71F5BC#32, 0xC2098E52#32, 0x85A73956#32, 0x828D53F8#32, 0xB3E4F77D#32, 0x2E07E976#32,
  0xA6BC5767#32, 0xD37048AC#32, 0xDFB39F8B#32, 0x7AB5E937#32, 0xB8C710E6#32, 0x49D1805D#32, 0x1593FCC9#32, 0xE2ADE9E8#32,
  0x3FB506DD#32, 0xF85D1B6F#32, 0xDDF521D2#32, 0x680046D9#32, 0xFF676A36#32, 0xCF45F2F3#32, 0x247BE654#32, 0x6C22EE0B#32,
  0x48B2364B#32, 0xE1462A2E#32, 0xDC374BE5#32, 0xD0BC21BC#32, 0xC2074386#32, 0x04192156#32, 0x820CEDE0#32, 0xA088EE95#32,
  0xD80D2BDA#32, 0x66DE36E1#32, 0xD76B0CD8#32, 0x88DF31EA#32, 0x4057D457#32, 0xF54F9383#32, 0x74449D09#32, 0x79A8FC39#32,
  0xAF0A1B4C#32, 0x7FC507A0#32, 0xD6A966EF#32, 0x3063568F#32, 0x7D37FDE7#32, 0x3E134026#32, 0xD23396BD#32, 0xB502FCA7#32,
  0x36034AF6#32, 0x54E85463#32, 0xD4EFD8B6#32, 0x22D6F961#32, 0x3A978737#32, 0xB8873288#32, 0xE3DB8C20#32, 0x3B8DFB44#32,
  0x41047A60#32, 0x4DF36522#32, 0xD52DB281#32, 0x9A6A9E04#32, 0x07F7AE87#32, 0x73DBE12D#32, 0x45AC8794#32, 0xF727FBDA#32,
  0xDF60EFC3#32, 0x02B2F3E5#32, 0xD062A404#32, 0x07BDA6BD#32, 0xB5D77297#32, 0x6EDED195#32, 0x800BB91A#32, 0xFDE2F2C3#32,
  0xA867DF55#32, 0x1BA9C2A4#32, 0xD1A0CE33#32, 0xBF01C1D8#32, 0x88B75B27#32, 0xA5820230#32, 0x267CB2AE#32, 0x3148F25D#32,
  0x316E8EEF#32, 0x30849167#32, 0xD3E6706A#32, 0xADB46E36#32, 0xCF1721F7#32, 0x2316709E#32, 0x1794A833#32, 0xBFC7F5BE#32,
  0x4669BE79#32, 0x299FA026#32, 0xD2241A5D#32, 0x15080953#32, 0xF2770847#32, 0xE84AA33B#32, 0xB1E3A387#32, 0x736DF520#32,
  0xCB61B38C#32, 0xE4C5AEB8#32, 0xC55EFE10#32, 0x1D724E9A#32, 0x10C70814#32, 0x1ACA1375#32, 0x20754FA0#32, 0xD6F6D6A7#32,
  0xBC66831A#32, 0xFDDE9FF9#32, 0xC49C9427#32, 0xA5CE29FF#32, 0x2DA721A4#32, 0xD196C0D0#32, 0x86024414#32, 0x1A5CD639#32,
  0x256FD2A0#32, 0xD6F3CC3A#32, 0xC6DA2A7E#32, 0xB77B8611#32, 0x6A075B74#32, 0x5702B27E#32, 0xB7EA5E89#32, 0x94D3D1DA#32,
  0x5268E236#32, 0xCFE8FD7B#32, 0xC7184049#32, 0x0FC7E174#32, 0x576772C4#32, 0x9C5E61DB#32, 0x119D553D#32, 0x5879D144#32,
  0xCC0C7795#32, 0x80A96BBC#32, 0xC25756CC#32, 0x9210D9CD#32, 0xE547AED4#32, 0x815B5163#32, 0xD43A6BB3#32, 0x52BCD85D#32,
  0xBB0B4703#32, 0x99B25AFD#32, 0xC3953CFB#32, 0x2AACBEA8#32, 0xD8278764#32, 0x4A0782C6#32, 0x724D6007#32, 0x9E16D8C3#32,
  0x220216B9#32, 0xB29F093E#32, 0xC1D382A2#32, 0x38191146#32, 0x9F87FDB4#32, 0xCC93F068#32, 0x43A57A9A#32, 0x1099DF20#32,
  0x5505262F#32, 0xAB84387F#32, 0xC011E895#32, 0x80A57623#32, 0xA2E7D404#32, 0x07CF23CD#32, 0xE5D2712E#32, 0xDC33DFBE#32,
  0xC5BA3BBE#32, 0x2C1C24B0#32, 0xCB4DAFA8#32, 0xD8C66675#32, 0x20B743D5#32, 0xF6999118#32, 0x139A01C7#32, 0x0513CD12#32,
  0xB2BD0B28#32, 0x350715F1#32, 0xCA8FC59F#32, 0x607A0110#32, 0x1DD76A65#32, 0x3DC542BD#32, 0xB5ED0A73#32, 0xC9B9CD8C#32,
  0x2BB45A92#32, 0x1E2A4632#32, 0xC8C97BC6#32, 0x72CFAEFE#32, 0x5A7710B5#32, 0xBB513013#32, 0x840510EE#32, 0x4736CA6F#32,
  0x5CB36A04#32, 0x07317773#32, 0xC90B11F1#32, 0xCA73C99B#32, 0x67173905#32, 0x700DE3B6#32, 0x22721B5A#32, 0x8B9CCAF1#32,
  0xC2D7FFA7#32, 0x4870E1B4#32, 0xCC440774#32, 0x57A4F122#32, 0xD537E515#32, 0x6D08D30E#32, 0xE7D525D4#32, 0x8159C3E8#32,
  0xB5D0CF31#32, 0x516BD0F5#32, 0xCD866D43#32, 0xEF189647#32, 0xE857CCA5#32, 0xA65400AB#32, 0x41A22E60#32, 0x4DF3C376#32,
  0x2CD99E8B#32, 0x7A468336#32, 0xCFC0D31A#32, 0xFDAD39A9#32, 0xAFF7B675#32, 0x20C07205#32, 0x704A34FD#32, 0xC37CC495#32,
  0x5BDEAE1D#32, 0x635DB277#32, 0xCE02B92D#32, 0x45115ECC#32, 0x92979FC5#32, 0xEB9CA1A0#32, 0xD63D3F49#32, 0x0FD6C40B#32,
  0x9B64C2B0#32, 0xCBFAD74E#32, 0x91AF9640#32, 0x764DEE06#32, 0xE915E8DB#32, 0x11E81EB4#32, 0xCC1D9F8B#32, 0x7AA64737#32,
  0xEC63F226#32, 0xD2E1E60F#32, 0x906DFC77#32, 0xCEF18963#32, 0xD475C16B#32, 0xDAB4CD11#32, 0x6A6A943F#32, 0xB60C47A9#32,
  0x756AA39C#32, 0xF9CCB5CC#32, 0x922B422E#32, 0xDC44268D#32, 0x93D5BBBB#32, 0x5C20BFBF#32, 0x5B828EA2#32, 0x3883404A#32,
  0x026D930A#32, 0xE0D7848D#32, 0x93E92819#32, 0x64F841E8#32, 0xAEB5920B#32, 0x977C6C1A#32, 0xFDF58516#32, 0xF42940D4#32,
  0x9C0906A9#32, 0xAF96124A#32, 0x96A63E9C#32, 0xF92F7951#32, 0x1C954E1B#32, 0x8A795CA2#32, 0x3852BB98#32, 0xFEEC49CD#32,
  0xEB0E363F#32, 0xB68D230B#32, 0x976454AB#32, 0x41931E34#32, 0x21F567AB#32, 0x41258F07#32, 0x9E25B02C#32, 0x32464953#32,
  0x72076785#32, 0x9DA070C8#32, 0x9522EAF2#32, 0x5326B1DA#32, 0x66551D7B#32, 0xC7B1FDA9#32, 0xAFCDAAB1#32, 0xBCC94EB0#32,
  0x05005713#32, 0x84BB4189#32, 0x94E080C5#32, 0xEB9AD6BF#32, 0x5B3534CB#32, 0x0CED2E0C#32, 0x09BAA105#32, 0x70634E2E#32,
  0x95BF4A82#32, 0x03235D46#32, 0x9FBCC7F8#32, 0xB3F9C6E9#32, 0xD965A31A#32, 0xFDBB9CD9#32, 0xFFF2D1EC#32, 0xA9435C82#32,
  0xE2B87A14#32, 0x1A386C07#32, 0x9E7EADCF#32, 0x0B45A18C#32, 0xE4058AAA#32, 0x36E74F7C#32, 0x5985DA58#32, 0x65E95C1C#32,
  0x7BB12BAE#32, 0x31153FC4#32, 0x9C381396#32, 0x19F00E62#32, 0xA3A5F07A#32, 0xB0733DD2#32, 0x686DC0C5#32, 0xEB665BFF#32,
  0x0CB61B38#32, 0x280E0E85#32, 0x9DFA79A1#32, 0xA14C6907#32, 0x9EC5D9CA#32, 0x7B2FEE77#32, 0xCE1ACB71#32, 0x27CC5B61#32,
  0x92D28E9B#32, 0x674F9842#32, 0x98B56F24#32, 0x3C9B51BE#32, 0x2CE505DA#32, 0x662ADECF#32, 0x0BBDF5FF#32, 0x2D095278#32,
  0xE5D5BE0D#32, 0x7E54A903#32, 0x99770513#32, 0x842736DB#32, 0x11852C6A#32, 0xAD760D6A#32, 0xADCAFE4B#32, 0xE1A352E6#32,
  0x7CDCEFB7#32, 0x5579FAC0#32, 0x9B31BB4A#32, 0x96929935#32, 0x562556BA#32, 0x2BE27FC4#32, 0x9C22E4D6#32, 0x6F2C5505#32,
  0x0BDBDF21#32, 0x4C62CB81#32, 0x9AF3D17D#32, 0x2E2EFE50#32, 0x6B457F0A#32, 0xE0BEAC61#32, 0x3A55EF62#32, 0xA386559B#32,
  0x86D3D2D4#32, 0x8138C51F#32, 0x8D893530#32, 0x2654B999#32, 0x89F57F59#32, 0x123E1C2F#32, 0xABC30345#32, 0x061D761C#32,
  0xF1D4E242#32, 0x9823F45E#32, 0x8C4B5F07#32, 0x9EE8DEFC#32, 0xB49556E9#32, 0xD962CF8A#32, 0x0DB408F1#32, 0xCAB77682#32,
  0x68DDB3F8#32, 0xB30EA79D#32, 0x8E0DE15E#32, 0x8C5D7112#32, 0xF3352C39#32, 0x5FF6BD24#32, 0x3C5C126C#32, 0x44387161#32,
  0x1FDA836E#32, 0xAA1596DC#32, 0x8FCF8B69#32, 0x34E11677#32, 0xCE550589#32, 0x94AA6E81#32, 0x9A2B19D8#32, 0x889271FF#32,
  0x81BE16CD#32, 0xE554001B#32, 0x8A809DEC#32, 0xA9362ECE#32, 0x7C75D999#32, 0x89AF5E39#32, 0x5F8C2756#32, 0x825778E6#32,
  0xF6B9265B#32, 0xFC4F315A#32, 0x8B42F7DB#32, 0x118A49AB#32, 0x4115F029#32, 0x42F38D9C#32, 0xF9FB2CE2#32, 0x4EFD7878#32,
  0x6FB077E1#32, 0xD7626299#32, 0x89044982#32, 0x033FE645#32, 0x06B58AF9#32, 0xC467FF32#32, 0xC813367F#32, 0xC0727F9B#32,
  0x18B74777#32, 0xCE7953D8#32, 0x88C623B5#32, 0xBB838120#32, 0x3BD5A349#32, 0x0F3B2C97#32, 0x6E643DCB#32, 0x0CD87F05#32,
  0x88085AE6#32, 0x49E14F17#32, 0x839A6488#32, 0xE3E09176#32, 0xB9853498#32, 0xFE6D9E42#32, 0x982C4D22#32, 0xD5F86DA9#32,
  0xFF0F6A70#32, 0x50FA7E56#32, 0x82580EBF#32, 0x5B5CF613#32, 0x84E51D28#32, 0x35314DE7#32, 0x3E5B4696#32, 0x19526D37#32,
  0x66063BCA#32, 0x7BD72D95#32, 0x801EB0E6#32, 0x49E959FD#32, 0xC34567F8#32, 0xB3A53F49#32, 0x0FB35C0B#32, 0x97DD6AD4#32,
  0x11010B5C#32, 0x62CC1CD4#32, 0x81DCDAD1#32, 0xF1553E98#32, 0xFE254E48#32, 0x78F9ECEC#32, 0xA9C457BF#32, 0x5B776A4A#32,
  0x8F659EFF#32, 0x2D8D8A13#32, 0x8493CC54#32, 0x6C820621#32, 0x4C059258#32, 0x65FCDC54#32, 0x6C636931#32, 0x51B26353#32,
  0xF862AE69#32, 0x3496BB52#32, 0x8551A663#32, 0xD43E6144#32, 0x7165BBE8#32, 0xAEA00FF1#32, 0xCA146285#32, 0x9D1863CD#32,
  0x616BFFD3#32, 0x1FBBE891#32, 0x8717183A#32, 0xC68BCEAA#32, 0x36C5C138#32, 0x28347D5F#32, 0xFBFC7818#32, 0x1397642E#32,
  0x166CCF45#32, 0x06A0D9D0#32, 0x86D5720D#32, 0x7E37A9CF#32, 0x0BA5E888#32, 0xE368AEFA#32, 0x5D8B73AC#32, 0xDF3D64B0#32,
  0xA00AE278#32, 0x5E7EF3EC#32, 0xA9E2D0A0#32, 0xD67F4138#32, 0x28D4C7DF#32, 0x16441B82#32, 0x03A0A617#32, 0x83D02561#32,
  0xD70DD2EE#32, 0x4765C2AD#32, 0xA820BA97#32, 0x6EC3265D#32, 0x15B4EE6F#32, 0xDD18C827#32, 0xA5D7ADA3#32, 0x4F7A25FF#32,
  0x4E048354#32, 0x6C48916E#32, 0xAA6604CE#32, 0x7C7689B3#32, 0x521494BF#32, 0x5B8CBA89#32, 0x943FB73E#32, 0xC1F5221C#32,
  0x3903B3C2#32, 0x7553A02F#32, 0xABA46EF9#32, 0xC4CAEED6#32, 0x6F74BD0F#32, 0x90D0692C#32, 0x3248BC8A#32, 0x0D5F2282#32,
  0xA7672661#32, 0x3A1236E8#32, 0xAEEB787C#32, 0x591DD66F#32, 0xDD54611F#32, 0x8DD55994#32, 0xF7EF8204#32, 0x079A2B9B#32,
  0xD06016F7#32, 0x230907A9#32, 0xAF29124B#32, 0xE1A1B10A#32, 0xE03448AF#32, 0x46898A31#32, 0x519889B0#32, 0xCB302B05#32,
  0x4969474D#32, 0x0824546A#32, 0xAD6FAC12#32, 0xF3141EE4#32, 0xA794327F#32, 0xC01DF89F#32, 0x6070932D#32, 0x45BF2CE6#32,
  0x3E6E77DB#32, 0x113F652B#32, 0xACADC625#32, 0x4BA87981#32, 0x9AF41BCF#32, 0x0B412B3A#32, 0xC6079899#32, 0x89152C78#32,
  0xAED16A4A#32, 0x96A779E4#32, 0xA7F18118#32, 0x13CB69D7#32, 0x18A48C1E#32, 0xFA1799EF#32, 0x304FE870#32, 0x50353ED4#32,
  0xD9D65ADC#32, 0x8FBC48A5#32, 0xA633EB2F#32, 0xAB770EB2#32, 0x25C4A5AE#32, 0x314B4A4A#32, 0x9638E3C4#32, 0x9C9F3E4A#32,
  0x40DF0B66#32, 0xA4911B66#32, 0xA4755576#32, 0xB9C2A15C#32, 0x6264DF7E#32, 0xB7DF38E4#32, 0xA7D0F959#32, 0x121039A9#32,
  0x37D83BF0#32, 0xBD8A2A27#32, 0xA5B73F41#32, 0x017EC639#32, 0x5F04F6CE#32, 0x7C83EB41#32, 0x01A7F2ED#32, 0xDEBA3937#32,
  0xA9BCAE53#32, 0xF2CBBCE0#32, 0xA0F829C4#32, 0x9CA9FE80#32, 0xED242ADE#32, 0x6186DBF9#32, 0xC400CC63#32, 0xD47F302E#32,
  0xDEBB9EC5#32, 0xEBD08DA1#32, 0xA13A43F3#32, 0x241599E5#32, 0xD044036E#32, 0xAADA085C#32, 0x6277C7D7#32, 0x18D530B0#32,
  0x47B2CF7F#32, 0xC0FDDE62#32, 0xA37CFDAA#32, 0x36A0360B#32, 0x97E479BE#32, 0x2C4E7AF2#32, 0x539FDD4A#32, 0x965A3753#32,
  0x30B5FFE9#32, 0xD9E6EF23#32, 0xA2BE979D#32, 0x8E1C516E#32, 0xAA84500E#32, 0xE712A957#32, 0xF5E8D6FE#32, 0x5AF037CD#32,
  0xBDBDF21C#32, 0x14BCE1BD#32, 0xB5C473D0#32, 0x866616A7#32, 0x4834505D#32, 0x15921919#32, 0x647E3AD9#32, 0xFF6B144A#32,
  0xCABAC28A#32, 0x0DA7D0FC#32, 0xB40619E7#32, 0x3EDA71C2#32, 0x755479ED#32, 0xDECECABC#32, 0xC209316D#32, 0x33C114D4#32,
  0x53B39330#32, 0x268A833F#32, 0xB640A7BE#32, 0x2C6FDE2C#32, 0x32F4033D#32, 0x585AB812#32, 0xF3E12BF0#32, 0xBD4E1337#32,
  0x24B4A3A6#32, 0x3F91B27E#32, 0xB782CD89#32, 0x94D3B949#32, 0x0F942A8D#32, 0x93066BB7#32, 0x55962044#32, 0x71E413A9#32,
  0xBAD03605#32, 0x70D024B9#32, 0xB2CDDB0C#32, 0x090481F0#32, 0xBDB4F69D#32, 0x8E035B0F#32, 0x90311ECA#32, 0x7B211AB0#32,
  0xCDD70693#32, 0x69CB15F8#32, 0xB30FB13B#32, 0xB1B8E695#32, 0x80D4DF2D#32, 0x455F88AA#32, 0x3646157E#32, 0xB78B1A2E#32,
  0x54DE5729#32, 0x42E6463B#32, 0xB1490F62#32, 0xA30D497B#32, 0xC774A5FD#32, 0xC3CBFA04#32, 0x07AE0FE3#32, 0x39041DCD#32,
  0x23D967BF#32, 0x5BFD777A#32, 0xB08B6555#32, 0x1BB12E1E#32, 0xFA148C4D#32, 0x089729A1#32, 0xA1D90457#32, 0xF5AE1D53#32,
  0xB3667A2E#32, 0xDC656BB5#32, 0xBBD72268#32, 0x43D23E48#32, 0x78441B9C#32, 0xF9C19B74#32, 0x579174BE#32, 0x2C8E0FFF#32,
  0xC4614AB8#32, 0xC57E5AF4#32, 0xBA15485F#32, 0xFB6E592D#32, 0x4524322C#32, 0x329D48D1#32, 0xF1E67F0A#32, 0xE0240F61#32,
  0x5D681B02#32, 0xEE530937#32, 0xB853F606#32, 0xE9DBF6C3#32, 0x028448FC#32, 0xB4093A7F#32, 0xC00E6597#32, 0x6EAB0882#32,
  0x2A6F2B94#32, 0xF7483876#32, 0xB9919C31#32, 0x516791A6#32, 0x3FE4614C#32, 0x7F55E9DA#32, 0x66796E23#32, 0xA201081C#32,
  0xB40BBE37#32, 0xB809AEB1#32, 0xBCDE8AB4#32, 0xCCB0A91F#32, 0x8DC4BD5C#32, 0x6250D962#32, 0xA3DE50AD#32, 0xA8C40105#32,
  0xC30C8EA1#32, 0xA1129FF0#32, 0xBD1CE083#32, 0x740CCE7A#32, 0xB0A494EC#32, 0xA90C0AC7#32, 0x05A95B19#32, 0x646E019B#32,
  0x5A05DF1B#32, 0x8A3FCC33#32, 0xBF5A5EDA#32, 0x66B96194#32, 0xF704EE3C#32, 0x2F987869#32, 0x34414184#32, 0xEAE10678#32,
  0x2D02EF8D#32, 0x9324FD72#32, 0xBE9834ED#32, 0xDE0506F1#32, 0xCA64C78C#32, 0xE4C4ABCC#32, 0x92364A30#32, 0x264B06E6#32]

end RedFs.Crc
