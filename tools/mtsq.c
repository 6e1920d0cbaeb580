#include <stdio.h>
#include <stdint.h>
#include <string.h>
#include <stdlib.h>
#define D 19937
#define W 313
typedef uint64_t u;
static u phi[64][W+1];
static u a[W], b[2*W+2];
static u spread(uint32_t x){u y=x;y=(y|y<<16)&0x0000ffff0000ffffULL;y=(y|y<<8)&0x00ff00ff00ff00ffULL;y=(y|y<<4)&0x0f0f0f0f0f0f0f0fULL;y=(y|y<<2)&0x3333333333333333ULL;y=(y|y<<1)&0x5555555555555555ULL;return y;}
int main(int c,char**v){
  int step=atoi(v[1]);
  static char s[8000]; FILE*f=fopen("phi.hex","r"); fscanf(f,"%7999s",s); int L=strlen(s);
  static u p[W+1];
  for(int i=0;i<L;i++){char ch=s[L-1-i]; u d=ch<='9'?ch-'0':ch-'a'+10; p[i/16]|=d<<(4*(i%16));}
  for(int k=0;k<64;k++) for(int i=0;i<=W;i++) phi[k][i]=(p[i]<<k)|(k&&i?p[i-1]>>(64-k):0);
  a[0]=2;
  for(int k=0;k<=D;k++){
    if(k%step==0||k==D){ printf("%d ",k); for(int i=W-1;i>=0;i--)printf("%016llx",(unsigned long long)a[i]); printf("\n"); }
    if(k==D)break;
    memset(b,0,sizeof b);
    for(int i=0;i<W;i++){b[2*i]=spread((uint32_t)a[i]);b[2*i+1]=spread(a[i]>>32);}
    for(int i=2*D-2;i>=D;i--) if(b[i/64]>>(i%64)&1){int sh=i-D; u*q=phi[sh%64]; u*r=b+sh/64; for(int j=0;j<=W;j++) r[j]^=q[j];}
    memcpy(a,b,sizeof a);
  }
}
